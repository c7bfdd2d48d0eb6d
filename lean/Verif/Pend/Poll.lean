import Verif.Pend.Model
/-!
# The pre-confirmed block from the gateway to the queries

The task that polls the gateway for pre-confirmed blocks, the queue of its events, the consumer that stores them if they fit the database, and
the database as the list of block hashes. What the gateway answers is part of the actions, so it is arbitrary.
-/
namespace Verif.Pend

/-- `State` of `poll_pre_confirmed` (crates/pathfinder/src/state/sync/pending.rs:21-26). -/
structure PState where
  number : Nat := 0
  count : Nat := 0
  pre : Bool := false
  deriving DecidableEq

/-- `State::update` (pending.rs:28-53): whether the state is to be replaced. -/
def PState.news (s new : PState) : Bool :=
  if new.number < s.number then false
  else if s.number < new.number then true
  else if new.count < s.count then false
  else if s.count < new.count then true
  else s.pre && !new.pre

/-- `SyncEvent::PreConfirmed` (crates/pathfinder/src/state/sync.rs:98-106). -/
structure Ev where
  number : Nat
  block : GBlock
  pre : Option GLatest
  deriving DecidableEq

/-- One round of polling in which the gateway answers: the watched head of the gateway's chain, the number of the watched current block, the
gateway's pending block and its pre-confirmed block of the number that is asked for (given as a function of the number). A round in which a
request fails has no effect (pending.rs:76-100) and is left out. -/
structure Round where
  latest : Nat
  hash : Nat
  current : Nat
  pending : GLatest
  block : Nat → GBlock

/-- `fetch_pre_latest` (pending.rs:136-160). The number of the pending block is the one that the node gives it. -/
def Round.preLatest (r : Round) : Option GLatest :=
  if r.pending.parent = r.hash then some { r.pending with number := r.latest + 1 } else none

/-- The number that is asked for (pending.rs:84-90). -/
def Round.number (r : Round) : Nat := if r.preLatest.isSome then r.latest + 2 else r.latest + 1

/-- The event of the round (pending.rs:91-117). -/
def Round.event (r : Round) : Ev := ⟨r.number, r.block r.number, r.preLatest⟩

/-- The new state of the poller (pending.rs:102-106). -/
def Ev.state (e : Ev) : PState := ⟨e.number, e.block.txs.length, e.pre.isSome⟩

/-- The check that the node is in sync (pending.rs:60-69). -/
def Round.inSync (r : Round) : Bool := decide (r.latest - r.current ≤ 6 ∧ r.current - r.latest ≤ 6)

/-- The whole: state of the poller, events in the queue, the watched pending data, the hashes of the blocks in the database. -/
structure Sys where
  st : PState := {}
  queue : List Ev := []
  data : Data := ⟨[], [], none, [], {}, 0, {}, 0⟩
  chain : List Nat := []

/-- The number of the latest block; zero for an empty database (sync.rs:1006-1009, pending.rs of the RPC: 612-616). -/
def Sys.head (s : Sys) : Nat := s.chain.length - 1

/-- A round of the poller; its task ends and is spawned again; the consumer takes an event; a block is stored; blocks are removed down to a
length. -/
inductive Act
  | poll (r : Round)
  | restart
  | consume
  | grow (hash : Nat)
  | reorg (len : Nat)

/-- One round (pending.rs:56-121). -/
def poll (s : Sys) (r : Round) : Sys :=
  if r.inSync && s.st.news r.event.state then { s with st := r.event.state, queue := s.queue ++ [r.event] } else s

/-- The number that must come next (sync.rs:1011-1014). -/
def Ev.next (e : Ev) : Nat := (e.pre.map (·.number)).getD e.number

/-- The consumer of an event (sync.rs:1000-1038); `none` is a panic. -/
def store (s : Sys) (e : Ev) : Option Sys :=
  if e.next = s.head + 1 then
    match convert e.block e.number e.pre with
    | .ok d => some { s with data := d }
    | .error .bail => some s
    | .error .panic => none
  else some s

/-- One action; `none` if it cannot happen, or panics. -/
def step (s : Sys) : Act → Option Sys
  | .poll r => some (poll s r)
  | .restart => some { s with st := {} }
  | .consume => match s.queue with
    | [] => none
    | e :: q => store { s with queue := q } e
  | .grow h => some { s with chain := s.chain ++ [h] }
  | .reorg n => if n < s.chain.length then some { s with chain := s.chain.take n } else none

/-- Several actions. -/
def runs (s : Sys) : List Act → Option Sys
  | [] => some s
  | a :: l => (step s a).bind fun t => runs t l

/-- What a query of version 0.9 or later is answered from; no state commitments here. -/
def Sys.view (s : Sys) : Except Fail Data := get s.head 0 true s.data

end Verif.Pend
