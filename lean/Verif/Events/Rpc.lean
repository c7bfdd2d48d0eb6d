import Verif.Events.Spec
/-
Model of starknet_getEvents: crates/rpc/src/method/get_events.rs and the part of crates/rpc/src/pending.rs it uses.

Simplifications: requests and results are reduced to what concerns events; `Hash` and `L1Accepted` block ids are given as
the number they are looked up to (`none` if there is none); sets of addresses and keys are lists; internal errors do not
occur; the continuation token is the pair, its string form is in `TokenText.lean`.
-/
namespace Verif.Events

/-- A pre-latest or pre-confirmed block, pending.rs 42-79: its number and, for each receipt, the transaction hash, the
transaction index and the events. -/
structure PendingBlock where
  number : Nat
  receipts : List (Nat × Nat × List Event)
deriving DecidableEq, Repr

/-- `PendingData`, pending.rs 88-97 and 125-143. `number` (the number of the pre-confirmed block) is part of the block. -/
structure Pending where
  preLatest : Option PendingBlock
  preConfirmed : PendingBlock
deriving DecidableEq, Repr

/-- `PendingData::empty`, pending.rs 290-330. -/
def emptyPending (latest : Nat) : Pending := { preLatest := none, preConfirmed := { number := latest + 1, receipts := [] } }

/-- `PendingWatcher::get`, pending.rs 604-717. `v09` says that the JSON-RPC version is 0.9 or later. Without any block the
default header is used, whose number is 0. `none` is the panic of an assertion. -/
def pendingGet (latest : Option Nat) (v09 : Bool) (w : Pending) : Option Pending :=
  let l := latest.getD 0
  if v09 then
    match w.preLatest with
    | some pl =>
      if pl.number = l + 1 then if pl.number + 1 = w.preConfirmed.number then some w else none
      else if pl.number = l then if pl.number + 1 = w.preConfirmed.number then some { w with preLatest := none } else none
      else some (emptyPending l)
    | none => if w.preConfirmed.number = l + 1 then some w else some (emptyPending l)
  else some (emptyPending l)

/-- `is_pre_latest_or_pre_confirmed`, pending.rs 583-587. -/
def isPending (p : Pending) (n : Nat) : Bool :=
  (match p.preLatest with | some b => b.number == n | none => false) || p.preConfirmed.number == n

/-- The first block that is not stored: `pre_latest_block_number().unwrap_or(pre_confirmed_block_number)`, get_events.rs
303-305 and 354-357. -/
def pendingStart (p : Pending) : Nat := match p.preLatest with | some b => b.number | none => p.preConfirmed.number

/-- `EmittedEvent` of the RPC, get_events.rs 638-650. -/
structure REvent where
  event : Event
  blockHash : Option Nat
  blockNumber : Nat
  txHash : Nat
  txIndex : Nat
  eventIndex : Nat
deriving DecidableEq, Repr

/-- `impl From<pathfinder_storage::EmittedEvent> for EmittedEvent`, get_events.rs 652-665. -/
def REvent.ofEmitted (e : Emitted) : REvent := ⟨e.event, some e.blockHash, e.blockNumber, e.txHash, e.txIndex, e.eventIndex⟩

/-- The events of a pending block before filtering, get_events.rs 549-555 and 583-592. -/
def pendingEmit (b : PendingBlock) : List REvent :=
  b.receipts.flatMap fun r => r.2.2.zipIdx.map fun ei => ⟨ei.1, none, b.number, r.1, r.2.1, ei.2⟩

/-- `match_and_fill_events`, get_events.rs 531-606: the appended events and whether the block is exhausted. -/
def matchAndFill (b : PendingBlock) (skip max : Nat) (keys : List (List Felt)) (addrs : List Felt) : List REvent × Bool :=
  let taken := (((pendingEmit b).filter fun e => addrMatches addrs e.event && keysMatch keys e.event).drop skip).take (max + 1)
  if taken.length > max then (taken.dropLast, false) else (taken, true)

inductive RpcError where
  | invalidToken
  | tooManyKeys
  | pageSizeTooBig
  | pageSizeTooSmall
  | blockNotFound
  | panic
deriving DecidableEq, Repr

/-- Where the pending part starts, get_events.rs 348-359. -/
def pendingFrom (p : Pending) : Option Token → Except RpcError Token
  | some ct =>
    if ct.block > p.preConfirmed.number then .error .invalidToken
    else if isPending p ct.block then .ok ct
    else .ok ⟨pendingStart p, 0⟩
  | none => .ok ⟨pendingStart p, 0⟩

/-- The pre-confirmed block only, get_events.rs 424-448. -/
def fromPreConfirmed (p : Pending) (start max : Nat) (keys : List (List Felt)) (addrs : List Felt) : List REvent × Option Token :=
  let r := matchAndFill p.preConfirmed start max keys addrs
  (r.1, if r.2 then none else some ⟨p.preConfirmed.number, start + r.1.length⟩)

/-- The pre-latest block and then the pre-confirmed block, get_events.rs 364-422. -/
def fromPreLatest (p : Pending) (b : PendingBlock) (start max : Nat) (keys : List (List Felt)) (addrs : List Felt) :
    List REvent × Option Token :=
  let r := matchAndFill b start max keys addrs
  if r.1.length = max then (r.1, some (if r.2 then ⟨p.preConfirmed.number, 0⟩ else ⟨b.number, start + max⟩))
  else
    let r' := matchAndFill p.preConfirmed 0 (max - r.1.length) keys addrs
    (r.1 ++ r'.1, if r'.2 then none else some ⟨p.preConfirmed.number, r'.1.length⟩)

/-- Which of the two, get_events.rs 362-450. -/
def pendingFill (p : Pending) (start : Token) (max : Nat) (keys : List (List Felt)) (addrs : List Felt) :
    List REvent × Option Token :=
  match p.preLatest with
  | some b => if b.number = start.block then fromPreLatest p b start.offset max keys addrs
    else fromPreConfirmed p start.offset max keys addrs
  | none => fromPreConfirmed p start.offset max keys addrs

/-- `get_pending_events`, get_events.rs 331-453. -/
def getPendingEvents (p : Pending) (max : Nat) (keys : List (List Felt)) (addrs : List Felt) (ct : Option Token) :
    Except RpcError (List REvent × Option Token) :=
  match pendingFrom p ct with
  | .error e => .error e
  | .ok start => .ok (pendingFill p start max keys addrs)

/-- `BlockId`. -/
inductive BlockId where
  | number (n : Nat)
  | stored (n : Option Nat)
  | latest
  | preConfirmed
deriving DecidableEq, Repr

/-- `EventFilter`, get_events.rs 64-74. -/
structure Request where
  fromBlock : Option BlockId
  toBlock : Option BlockId
  addrs : List Felt
  keys : List (List Felt)
  chunk : Nat
deriving DecidableEq, Repr

/-- Numbers of pending blocks stand for the pre-confirmed block, get_events.rs 190-199. -/
def replacePending (p : Pending) : BlockId → BlockId
  | .number n => if isPending p n then .preConfirmed else .number n
  | b => b

/-- `map_to_block_to_number`, get_events.rs 460-488. -/
def mapTo : Option BlockId → Except RpcError (Option Nat)
  | some (.stored none) => .error .blockNotFound
  | some (.stored (some n)) => .ok (some n)
  | some (.number n) => .ok (some n)
  | some .preConfirmed => .ok none
  | some .latest => .ok none
  | none => .ok none

/-- `map_from_block_to_number`, get_events.rs 495-525. -/
def mapFrom (latest : Option Nat) : Option BlockId → Except RpcError (Option Nat)
  | some (.stored none) => .error .blockNotFound
  | some (.stored (some n)) => .ok (some n)
  | some (.number n) => .ok (some n)
  | some .preConfirmed => match latest with | some l => .ok (some l) | none => .error .blockNotFound
  | some .latest => match latest with | some l => .ok (some l) | none => .error .blockNotFound
  | none => .ok none

/-- The position in the stored part, get_events.rs 248-256. -/
def storedStart (from_ : Option Nat) : Option Token → Except RpcError (Option Nat × Nat)
  | some t => if (match from_ with | some f => decide (f > t.block) | none => false) then .error .invalidToken
    else .ok (some t.block, t.offset)
  | none => .ok (from_, 0)

/-- Whether the end of the range is the pre-confirmed block: `matches!(to, Some(PreConfirmed) | None)`, get_events.rs 204
and 285-286. -/
def toPending : Option BlockId → Bool
  | some .preConfirmed => true
  | none => true
  | _ => false

/-- Pending events after the stored ones, get_events.rs 284-316. -/
def appendPending (p : Pending) (chunk : Nat) (keys : List (List Felt)) (addrs : List Felt) (ct : Option Token)
    (evs : List REvent) : Except RpcError (List REvent × Option Token) :=
  if evs.length < chunk then
    match getPendingEvents p (chunk - evs.length) keys addrs ct with
    | .error e => .error e
    | .ok r => .ok (evs ++ r.1, r.2)
  else .ok (evs, some ⟨pendingStart p, 0⟩)

/-- The part with a database query, get_events.rs 234-321. -/
def storedEvents (c : Cfg) (s : Sys) (limit : Nat) (p : Pending) (q : Constraints) (toP : Bool) (ct : Option Token) :
    Except RpcError (List REvent × Option Token) :=
  match storedStart q.fromBlock ct with
  | .error e => .error e
  | .ok (f, off) =>
    match (events c s.db s.mem false limit { q with fromBlock := f, offset := off }).1 with
    | .error .pageSizeTooSmall => .error .pageSizeTooSmall
    | .error .panic => .error .panic
    | .ok page =>
      if page.token.isNone && toP then appendPending p q.pageSize q.keys q.addrs ct (page.events.map REvent.ofEmitted)
      else .ok (page.events.map REvent.ofEmitted, page.token)

/-- `from > to`, get_events.rs 237-245. -/
def crossed : Option Nat → Option Nat → Bool
  | some f, some t => decide (f > t)
  | _, _ => false

/-- After the trivial cases, get_events.rs 232-321. -/
def rangeEvents (c : Cfg) (s : Sys) (limit : Nat) (p : Pending) (r : Request) (from_ to : Option BlockId) (ct : Option Token) :
    Except RpcError (List REvent × Option Token) :=
  match mapFrom (latestBlock s.db) from_, mapTo to with
  | .error e, _ => .error e
  | _, .error e => .error e
  | .ok f, .ok t =>
    if crossed f t then .ok ([], none)
    else storedEvents c s limit p ⟨f, t, r.addrs, trimKeys r.keys, r.chunk, 0⟩ (toPending to) ct

/-- Case 4a, get_events.rs 223-230. -/
def beyondPending (p : Pending) : Option BlockId → Option BlockId → Bool
  | some (.number n), some .preConfirmed => decide (n > p.preConfirmed.number)
  | _, _ => false

/-- `get_events`, get_events.rs 115-327, on a node that keeps all blocks; `p` is the pending data that
`PendingWatcher::get` returned. -/
def getEvents (c : Cfg) (s : Sys) (limit : Nat) (p : Pending) (r : Request) (ct : Option Token) :
    Except RpcError (List REvent × Option Token) :=
  if r.keys.length > keyLimit then .error .tooManyKeys
  else if r.chunk > 1024 then .error .pageSizeTooBig
  else
    let from_ := r.fromBlock.map (replacePending p)
    let to := r.toBlock.map (replacePending p)
    if from_ = some .preConfirmed then
      if toPending to then getPendingEvents p r.chunk (trimKeys r.keys) r.addrs ct else .ok ([], none)
    else if beyondPending p from_ to then .ok ([], none)
    else rangeEvents c s limit p r from_ to ct

end Verif.Events
