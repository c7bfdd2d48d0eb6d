/-!
# Websocket subscriptions with catch-up

Models how a subscription that starts at an old block (`starknet_subscribeNewHeads`, `starknet_subscribeEvents`)
is served: first from the database in batches, then from the broadcast channels of the sync task.

* `crates/rpc/src/jsonrpc/router/subscription.rs` 175-400: the flow (`invoke`).
* `crates/rpc/src/method/subscribe_new_heads.rs` 64-150 and `subscribe_events.rs` 175-435: `catch_up` and `subscribe`.
* `crates/pathfinder/src/state/sync.rs` 1040-1053 and 1516-1541: commit, then announce.

A block is known by an id (its hash and body); `items id` are the messages the subscription sends for a block with that
id: one for new heads, the matching events in order for events.

Simplifications.  The broadcast channels (1024 entries) and the queue to the client are unbounded: a subscription that
falls behind ends without an error in the program (`Err(Lagged)` is logged and the task returns `Ok`), which is not
modelled.  Database errors, which end the subscription with an error message, and blockchain pruning are not modelled.
Messages for pre-confirmed blocks are not modelled here.  Batches that read the database are one step each: the
program reads in one SQL transaction.
-/

namespace Verif.Subs

/-- What the client gets (`subscribe_new_heads.rs` 19-23 and `subscribe_events.rs`: `Notification`): an item of the block
with this number and id, or the notice that blocks from `start` on are gone. -/
inductive Msg where
  | item (number id x : Nat)
  | reorg (start : Nat)
deriving DecidableEq, Repr

/-- `SubscriptionMessage::block_number` (`subscription.rs` 148-155; for a reorg its first block,
`subscribe_new_heads.rs` 110). -/
def Msg.number : Msg → Nat
  | .item n _ _ => n
  | .reorg s => s

/-- The messages for one block, as made by `catch_up` and by `subscribe` (`subscribe_new_heads.rs` 78-90 and 129-135;
`subscribe_events.rs` 219-243 and 437-480). -/
def blockMsgs (items : Nat → List Nat) (n id : Nat) : List Msg := (items id).map (Msg.item n id)

/-- The messages of the stored blocks `i`, `i + 1`, …, `j - 1`: `block_range` (`storage/src/connection/block.rs`
373-391) and `events_in_range` (`storage/src/connection/event.rs` 156-258) for the inclusive range `i ..= j - 1`. -/
def msgs (items : Nat → List Nat) (chain : List Nat) (i j : Nat) : List Msg :=
  (List.range' i (j - i)).flatMap fun n => (chain[n]?).elim [] (blockMsgs items n)

/-- What the sync task still has to announce (`sync.rs` 1511-1514 `Notification`). -/
inductive Note where
  | block (number id : Nat)
  | reorg (start : Nat)
deriving DecidableEq, Repr

/-- Where the subscription is: catching up in batches from `cur`; done with that, before `headers.subscribe()`; before
`reorgs.subscribe()`; waiting for the first message; forwarding. -/
inductive Phase where
  | catching (cur : Nat)
  | opening (cur : Nat)
  | half (cur : Nat)
  | waiting (cur : Nat)
  | live
deriving DecidableEq, Repr

/-- The stored chain, what is committed and not announced, and the state of one subscription: its two broadcast
receivers, the queue between `subscribe` and `invoke` (`tx1`, `rx1`), and what the client was sent. -/
structure Sys where
  chain : List Nat
  pending : Option Note
  phase : Phase
  heads : List (Nat × Nat)
  reorgs : List Nat
  mid : List Msg
  out : List Msg
deriving DecidableEq, Repr

/-- The steps of the sync task and of the subscription. -/
inductive Act where
  /-- The sync task commits a block on the head. -/
  | commit (id : Nat)
  /-- The sync task commits the removal of all blocks from `s` on. -/
  | reorg (s : Nat)
  /-- Committing a block fails; the announcement is made nevertheless (`sync.rs` 1040-1053). -/
  | failCommit (id : Nat)
  | announce
  | batch
  | openHeads
  | openReorgs
  | takeHead
  | takeReorg
  | first
  | forward
deriving DecidableEq, Repr

/-- Whether the receiver of new blocks is open. -/
def Phase.hearsHeads : Phase → Bool
  | .half _ | .waiting _ | .live => true
  | _ => false

/-- Whether the receiver of reorgs is open. -/
def Phase.hearsReorgs : Phase → Bool
  | .waiting _ | .live => true
  | _ => false

/-- `send_notification` (`sync.rs` 1516-1541): a receiver gets what is sent after it subscribed. -/
def announce (s : Sys) : Note → Sys
  | .block n id => { s with pending := none, heads := if s.phase.hearsHeads then s.heads ++ [(n, id)] else s.heads }
  | .reorg k => { s with pending := none, reorgs := if s.phase.hearsReorgs then s.reorgs ++ [k] else s.reorgs }

/-- One round of the catch-up loop (`subscription.rs` 283-326): read `cur ..= cur + B - 1`; end the loop when nothing is
there or when the last block read is below the end of the batch. -/
def batch (items : Nat → List Nat) (B : Nat) (s : Sys) (cur : Nat) : Sys :=
  if cur < s.chain.length then
    let next := min (cur + B) s.chain.length
    { s with out := s.out ++ msgs items s.chain cur next, phase := if next < cur + B then .opening next else .catching next }
  else { s with phase := .opening cur }

/-- The first message (`subscription.rs` 344-392): catch up to the block before it, then send it. -/
def firstMsg (items : Nat → List Nat) (s : Sys) (cur : Nat) (m : Msg) (rest : List Msg) : Sys :=
  { s with out := s.out ++ (if cur < m.number then msgs items s.chain cur m.number else []) ++ [m], mid := rest, phase := .live }

/-- One step; `none` when it cannot be taken.  The sync task does one thing at a time: it announces what it committed
before it commits again (`sync.rs` 1040-1053).  The two receivers are read in any order (`tokio::select!`). -/
def step (items : Nat → List Nat) (B : Nat) (s : Sys) : Act → Option Sys
  | .commit id => if s.pending = none then some { s with chain := s.chain ++ [id], pending := some (.block s.chain.length id) } else none
  | .reorg k => if s.pending = none ∧ k < s.chain.length then some { s with chain := s.chain.take k, pending := some (.reorg k) } else none
  | .failCommit id => if s.pending = none then some { s with pending := some (.block s.chain.length id) } else none
  | .announce => s.pending.map (announce s)
  | .batch => match s.phase with
    | .catching cur => some (batch items B s cur)
    | _ => none
  | .openHeads => match s.phase with
    | .opening cur => some { s with phase := .half cur }
    | _ => none
  | .openReorgs => match s.phase with
    | .half cur => some { s with phase := .waiting cur }
    | _ => none
  | .takeHead => if s.phase.hearsReorgs then match s.heads with
      | h :: t => some { s with heads := t, mid := s.mid ++ blockMsgs items h.1 h.2 }
      | [] => none
    else none
  | .takeReorg => if s.phase.hearsReorgs then match s.reorgs with
      | k :: t => some { s with reorgs := t, mid := s.mid ++ [.reorg k] }
      | [] => none
    else none
  | .first => match s.phase, s.mid with
    | .waiting cur, m :: rest => some (firstMsg items s cur m rest)
    | _, _ => none
  | .forward => match s.phase, s.mid with
    | .live, m :: rest => some { s with mid := rest, out := s.out ++ [m] }
    | _, _ => none

/-- A schedule: steps taken one after another. -/
def run (items : Nat → List Nat) (B : Nat) (s : Sys) : List Act → Option Sys
  | [] => some s
  | a :: as => (step items B s a).bind fun t => run items B t as

/-- The subscription task starts (`subscription.rs` 269-283): `start` is a stored block (`BlockNotFound` otherwise); the
sync task may be between committing its head and announcing it. -/
def init (chain : List Nat) (unannounced : Bool) (start : Nat) : Sys :=
  { chain := chain, pending := if unannounced then chain.getLast?.map (Note.block (chain.length - 1)) else none, phase := .catching start, heads := [], reorgs := [], mid := [], out := [] }

/-- A step that is neither a reorg nor a failed commit. -/
def Act.plain : Act → Bool
  | .reorg _ | .failCommit _ => false
  | _ => true

/-- A schedule in which no batch of the catch-up reads while a committed block is still to be announced. -/
def Calm (items : Nat → List Nat) (B : Nat) : Sys → List Act → Prop
  | _, [] => True
  | s, a :: as => (a = .batch → s.pending = none) ∧ ∀ t, step items B s a = some t → Calm items B t as

end Verif.Subs
