/-!
# Subscriptions on one websocket

Model of the life of subscriptions in `crates/rpc/src/jsonrpc/router/subscription.rs`: the registry `Subscriptions`, `handle_request`, the
task spawned by `invoke`, the inner task that runs `T::subscribe`, `SubscriptionsGuard`, `SubscriptionSender::{send, send_err}` and the loop
of `handle_json_rpc_socket`. Which messages a subscription makes is in `Verif.Subs`; here they are numbers that come in any order.

Every access to the shared registry and every send to the websocket channel is one step; steps of all tasks interleave freely. Simplified:
the channel to the websocket never closes; the counter of ids is not wrapped, so runs have at most 2^32 subscribe requests.
-/
namespace Verif.Rpc.Subs

/-- What a request of a round asks for. `ok`: the params are good and the starting block is found (188-265). -/
inductive Rq
  | subscribe (ok : Bool)
  | unsubscribe (id : Nat)
  | other

/-- What is answered (693-776). -/
inductive Ans
  | subscribed (id : Nat)
  | refused
  | unsubscribed (id : Nat)
  | invalidId (id : Nat)
  | other
  deriving DecidableEq

/-- A request of the round that is handled. -/
inductive Slot
  | todo (r : Rq)
  | allocated (id : Nat) (ok : Bool)
  | answered (a : Ans)

/-- A notification: data, or `pathfinder_subscriptionError`. -/
inductive Note
  | data (n : Nat)
  | err
  deriving DecidableEq

/-- A message on the websocket: the answers to a request or batch, or a notification with the id of its subscription. -/
inductive Msg
  | reply (as : List Ans)
  | note (id : Nat) (n : Note)

/-- The inner task (310-323): not spawned, in `T::subscribe`, `T::subscribe` returned an error, `send_err` has found the id, ended. When
`T::subscribe` returns, its end of the channel to the main task is dropped. -/
inductive Inner
  | idle
  | running
  | failed
  | sending
  | ended
  deriving DecidableEq

/-- The main task of a subscription (267-401). `locked`: it waits for the read lock of its round (274); `aborted`: unsubscribing has asked
for its end (723); `gone`: it has ended and its guard is dropped; `pend`: a message for which `send` has found the id, not yet on the channel;
`closing`: it returns after this message; `offered`: the data passed to `send` so far. -/
structure Task where
  locked : Bool := true
  aborted : Bool := false
  gone : Bool := false
  pend : Option Note := none
  closing : Bool := false
  inner : Inner := .idle
  offered : List Nat := []

/-- The connection. `registry`: the keys of `Subscriptions`; `round`: the requests in work, if any. -/
structure Sys where
  next : Nat := 0
  registry : List Nat := []
  tasks : Nat → Option Task := fun _ => none
  round : Option (List Slot) := none
  wire : List Msg := []

def Sys.setTask (s : Sys) (k : Nat) (t : Task) : Sys := { s with tasks := fun j => if j = k then some t else s.tasks j }

def Sys.setSlot (s : Sys) (slots : List Slot) (i : Nat) (x : Slot) : Sys := { s with round := some (slots.set i x) }

/-- `Subscriptions::remove` (45-50). -/
def Sys.remove (s : Sys) (k : Nat) : Sys := { s with registry := s.registry.filter (· ≠ k) }

def Slot.answer : Slot → Option Ans
  | .answered a => some a
  | _ => none

/-- The answers of a round, once all requests are handled. -/
def answersOf (slots : List Slot) : Option (List Ans) := if slots.all (·.answer.isSome) then some (slots.filterMap Slot.answer) else none

/-- The steps. -/
inductive Act
  /-- the loop gets a message (492-519) -/
  | recv (rqs : List Rq)
  /-- `next_id` for a request (64-69, 743) -/
  | alloc (i : Nat)
  /-- `invoke` and `insert` (745-766) -/
  | start (i : Nat)
  /-- unsubscribing (693-731) -/
  | unsub (i : Nat)
  /-- any other request -/
  | other (i : Nat)
  /-- the answers are sent, the write guard is dropped (554-571, 649-657) -/
  | reply
  /-- the main task passes data to `send`, which looks up the id (795-803) -/
  | check (k : Nat) (n : Nat)
  /-- the catch-up failed: the main task calls `send_err` (285-292, 347-354, 823-827) -/
  | fail (k : Nat)
  /-- the message goes to the channel (816-819) -/
  | push (k : Nat)
  /-- the inner task is spawned (310) -/
  | spawn (k : Nat)
  /-- `T::subscribe` returns (316) -/
  | innerEnd (k : Nat) (failed : Bool)
  /-- `send_err` of the inner task looks up the id (317, 823-827) -/
  | innerCheck (k : Nat)
  /-- its message goes to the channel -/
  | innerPush (k : Nat)
  /-- the main task returns (291, 328, 353; 384 and 396 after the loop): after an error, or as the channel from the inner task is closed -/
  | exit (k : Nat)
  /-- an aborted task ends where it waits -/
  | die (k : Nat)

/-- The inner task has dropped its end of the channel. -/
def Inner.over : Inner → Bool
  | .failed | .sending | .ended => true
  | _ => false

/-- The main task may go on. -/
def Task.ready (t : Task) : Bool := !t.locked && !t.gone && t.pend.isNone && !t.closing

def step (s : Sys) : Act → Option Sys
  | .recv rqs => match s.round with
    | none => some { s with round := some (rqs.map .todo) }
    | some _ => none
  | .alloc i => s.round.bind fun slots => match slots[i]? with
    | some (.todo (.subscribe ok)) =>
      if s.next < 2 ^ 32 then some { s.setSlot slots i (.allocated s.next ok) with next := s.next + 1 } else none
    | _ => none
  | .start i => s.round.bind fun slots => match slots[i]? with
    | some (.allocated k true) => some { (s.setTask k {}).setSlot slots i (.answered (.subscribed k)) with registry := k :: s.registry }
    | some (.allocated _ false) => some (s.setSlot slots i (.answered .refused))
    | _ => none
  | .unsub i => s.round.bind fun slots => match slots[i]? with
    | some (.todo (.unsubscribe k)) =>
      if s.registry.contains k then
        (s.tasks k).bind fun t => some (((s.remove k).setTask k { t with aborted := true }).setSlot slots i (.answered (.unsubscribed k)))
      else some (s.setSlot slots i (.answered (.invalidId k)))
    | _ => none
  | .other i => s.round.bind fun slots => match slots[i]? with
    | some (.todo .other) => some (s.setSlot slots i (.answered .other))
    | _ => none
  | .reply => s.round.bind fun slots => (answersOf slots).bind fun as =>
      some { s with round := none, wire := s.wire ++ [.reply as], tasks := fun k => (s.tasks k).map fun t => { t with locked := false } }
  | .check k n => (s.tasks k).bind fun t =>
      if t.ready then
        some (s.setTask k { t with offered := t.offered ++ [n], pend := if s.registry.contains k then some (.data n) else none })
      else none
  | .fail k => (s.tasks k).bind fun t =>
      if t.ready then some (s.setTask k { t with closing := true, pend := if s.registry.contains k then some .err else none }) else none
  | .push k => (s.tasks k).bind fun t => t.pend.bind fun n =>
      some { s.setTask k { t with pend := none } with wire := s.wire ++ [.note k n] }
  | .spawn k => (s.tasks k).bind fun t =>
      if t.ready && t.inner == .idle then some (s.setTask k { t with inner := .running }) else none
  | .innerEnd k failed => (s.tasks k).bind fun t =>
      if t.inner = .running then some (s.setTask k { t with inner := if failed then .failed else .ended }) else none
  | .innerCheck k => (s.tasks k).bind fun t =>
      if t.inner = .failed then some (s.setTask k { t with inner := if s.registry.contains k then .sending else .ended }) else none
  | .innerPush k => (s.tasks k).bind fun t =>
      if t.inner = .sending then some { s.setTask k { t with inner := .ended } with wire := s.wire ++ [.note k .err] } else none
  | .exit k => (s.tasks k).bind fun t =>
      if !t.locked && !t.gone && t.pend.isNone && (t.closing || t.inner.over) then some ((s.remove k).setTask k { t with gone := true }) else none
  | .die k => (s.tasks k).bind fun t =>
      if t.aborted && !t.gone then some ((s.remove k).setTask k { t with gone := true, pend := none }) else none

/-- A run. -/
def runs (s : Sys) : List Act → Option Sys
  | [] => some s
  | a :: as => (step s a).bind fun s => runs s as

end Verif.Rpc.Subs
