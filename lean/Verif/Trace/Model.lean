/-!
Model of traces: the cache and the state they are run on. crates/executor/src/simulate.rs 218-345 `trace` and
`TraceCache`, crates/rpc/src/method/trace_block_transactions.rs and trace_transaction.rs.

Simplifications: calls of `trace` are threads that take turns; what happens under the lock of the cache is one
step. Running a block's transactions is not modelled: a run of a key ends with some result that it may have.
The cache may lose any entry at any time; the program's loses the least recently used one when it is full.
-/

namespace Verif.Trace

/-- simulate.rs 45-49 `CacheKey`. -/
structure Key where
  block : Nat
  initialReads : Bool
deriving DecidableEq

/-- What a run may end with that is kept: the traces or an error of `TraceError` (67-91). -/
abbrev Result (V E : Type) := Except E V

/-- What a call answers: a result; "Trace error", because the run it waited for was given up (255); or an
error of its own run that is not kept (308-312, 333). -/
inductive Answer (V E : Type) where
  | result (r : Result V E)
  | lost
  | failed

/-- simulate.rs 60-65 `CacheItem`; a run is named by the call that does it. -/
inductive Item (V E : Type) where
  | inflight (owner : Nat)
  | cached (r : Result V E)

/-- Where a call is. `waiting` for the run of `owner`; `missed` says that it subscribed when the message had
already been sent, and so does not get it. `failing` is after 308-312 and before the sender is dropped. -/
inductive Call (V E : Type) where
  | computing
  | failing
  | waiting (owner : Nat) (missed : Bool)
  | answered (a : Answer V E)

/-- The channel of a run (259): what was sent, and whether the sender is gone. -/
structure Chan (V E : Type) where
  sent : Option (Result V E)
  closed : Bool

/-- Cache, calls with their keys, and channels. -/
structure State (V E : Type) where
  cache : Key → Option (Item V E)
  calls : Nat → Option (Key × Call V E)
  chans : Nat → Chan V E

variable {V E : Type}

/-- Nothing happened yet. -/
def State.init : State V E := ⟨fun _ => none, fun _ => none, fun _ => ⟨none, false⟩⟩

/-- Pointwise update. -/
def update {A B : Type} [DecidableEq A] (f : A → B) (a : A) (b : B) : A → B := fun x => if x = a then b else f x

/-- simulate.rs 233-263, under the lock: what is kept is the answer, a run that goes on is waited for, and
otherwise the call runs the block itself. -/
def State.enter (s : State V E) (i : Nat) (k : Key) : State V E :=
  match s.cache k with
  | some (.cached r) => { s with calls := update s.calls i (some (k, .answered (.result r))) }
  | some (.inflight o) => { s with calls := update s.calls i (some (k, .waiting o (s.chans o).sent.isSome)) }
  | none =>
    { cache := update s.cache k (some (.inflight i))
      calls := update s.calls i (some (k, .computing))
      chans := update s.chans i ⟨none, false⟩ }

/-- simulate.rs 293-299 and 340-344, under the lock: the result is sent to those that wait, kept and answered.
The sender is dropped right after. -/
def State.publish (s : State V E) (i : Nat) (k : Key) (r : Result V E) : State V E :=
  { cache := update s.cache k (some (.cached r))
    calls := update s.calls i (some (k, .answered (.result r)))
    chans := update s.chans i ⟨some r, true⟩ }

/-- simulate.rs 308-312, under the lock: the state diff could not be made. -/
def State.giveUp (s : State V E) (i : Nat) (k : Key) : State V E :=
  { s with cache := update s.cache k none, calls := update s.calls i (some (k, .failing)) }

/-- The call returns an error, or panics, without sending anything; the sender is dropped. After 312, and at
333 (`get_initial_reads()?`), and when the executor panics. -/
def State.drop (s : State V E) (i : Nat) (k : Key) : State V E :=
  { s with
    calls := update s.calls i (some (k, .answered .failed))
    chans := update s.chans i { s.chans i with closed := true } }

/-- simulate.rs 254-256: the message, or the end of the channel, or neither yet. -/
def Chan.receive (c : Chan V E) (missed : Bool) : Option (Answer V E) :=
  match missed, c.sent with
  | false, some r => some (.result r)
  | _, _ => if c.closed then some .lost else none

/-- What can happen. `produces k r` says that running the block of `k` may end with `r`. -/
inductive Step (produces : Key → Result V E → Prop) : State V E → State V E → Prop where
  | enter {s : State V E} (i : Nat) (k : Key) (fresh : s.calls i = none) : Step produces s (s.enter i k)
  | publish {s : State V E} (i : Nat) (k : Key) (r : Result V E) (at' : s.calls i = some (k, .computing)) (p : produces k r) :
      Step produces s (s.publish i k r)
  | giveUp {s : State V E} (i : Nat) (k : Key) (at' : s.calls i = some (k, .computing)) : Step produces s (s.giveUp i k)
  | drop {s : State V E} (i : Nat) (k : Key) (at' : s.calls i = some (k, .computing) ∨ s.calls i = some (k, .failing)) :
      Step produces s (s.drop i k)
  | receive {s : State V E} (i : Nat) (k : Key) (o : Nat) (missed : Bool) (a : Answer V E)
      (at' : s.calls i = some (k, .waiting o missed)) (got : (s.chans o).receive missed = some a) :
      Step produces s { s with calls := update s.calls i (some (k, .answered a)) }

/-- A step, or the loss of an entry of the cache. -/
inductive Any (produces : Key → Result V E → Prop) : State V E → State V E → Prop where
  | step {s t : State V E} (h : Step produces s t) : Any produces s t
  | evict {s : State V E} (k : Key) : Any produces s { s with cache := update s.cache k none }

/-- States after any number of steps of `R`. -/
inductive Reach (R : State V E → State V E → Prop) : State V E → State V E → Prop where
  | refl (s : State V E) : Reach R s s
  | tail {s t u : State V E} (h : Reach R s t) (r : R t u) : Reach R s u

/-! ### The state a block is run on -/

/-- crates/executor/src/execution_state.rs 213-217 and `PathfinderStateReader`: storage read at a block number,
with the diffs of the stored blocks; a number that is not stored stands for all of them, since the query
(crates/storage/src/connection/state_update.rs 655-667) takes the last entry up to the number. -/
def stateAt {St : Type} (apply : St → Nat → St) (genesis : St) (diffs : List Nat) (upTo : Nat) : St :=
  (diffs.take (upTo + 1)).foldl apply genesis

/-- The state that `ExecutionState::trace` (execution_state.rs 419-443) makes for the block `number`; no pending
state is passed (trace_transaction.rs 173, trace_block_transactions.rs 187). -/
def traceBase {St : Type} (apply : St → Nat → St) (genesis : St) (diffs : List Nat) (number : Nat) : St :=
  match number with
  | 0 => genesis
  | n + 1 => stateAt apply genesis diffs n

end Verif.Trace
