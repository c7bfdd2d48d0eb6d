/-!
# Stages of the p2p sync pipelines

Models `crates/pathfinder/src/sync/stream.rs`. A stream is the list of items that pass through a channel until it is
closed. An item is a value with the peer it came from, or an error.

The second half models the tasks that run the stages concurrently: one task per stage, joined by bounded channels, with
an arbitrary schedule.
-/

namespace Verif.Sync

/-- An item of a stream: `Result<PeerData<T>, SyncError>` (crates/pathfinder/src/sync/stream.rs lines 18-19). -/
abbrev Item (P E α : Type) := Except E (P × α)

variable {P E α β σ : Type}

/-- `Source::spawn` (crates/pathfinder/src/sync/stream.rs lines 269-288): forwards items up to and including the first
error. -/
def source : List (Item P E α) → List (Item P E α)
  | [] => []
  | .error e :: _ => [.error e]
  | .ok x :: rest => .ok x :: source rest

/-- `InfallibleSource::spawn` (crates/pathfinder/src/sync/stream.rs lines 233-250): forwards every item. -/
def infallible (xs : List (P × α)) : List (Item P E α) := xs.map .ok

/-- `SyncReceiver::pipe_impl` (crates/pathfinder/src/sync/stream.rs lines 71-122). `map` is the stage's `map` together
with the state it leaves behind. The task stops after the first error, its own or one it receives. Not modelled: the
cancellation token, the metrics and a receiver that hangs up (see `Task` for that one). -/
def pipe (map : σ → P → α → Except E (β × σ)) : σ → List (Item P E α) → List (Item P E β)
  | _, [] => []
  | _, .error e :: _ => [.error e]
  | s, .ok (p, a) :: rest =>
    match map s p a with
    | .error e => [.error e]
    | .ok (b, s') => .ok (p, b) :: pipe map s' rest

/-- The `Send any remaining elements` part of `SyncReceiver::try_chunks` (crates/pathfinder/src/sync/stream.rs lines
167-174). -/
def chunkRest (peer : Option P) (chunk : List α) : List (Item P E (List α)) :=
  match peer with
  | none => []
  | some p => if chunk.isEmpty then [] else [.ok (p, chunk)]

/-- The loop of `SyncReceiver::try_chunks` (crates/pathfinder/src/sync/stream.rs lines 129-175) with the peer of the
current chunk and the chunk. -/
def chunkLoop (capacity : Nat) : Option P → List α → List (Item P E α) → List (Item P E (List α))
  | peer, chunk, [] => chunkRest peer chunk
  | peer, chunk, .error e :: _ => chunkRest peer chunk ++ [.error e]
  | peer, chunk, .ok (p, a) :: rest =>
    let peer := if chunk.isEmpty then some p else peer
    let chunk := chunk ++ [a]
    if chunk.length = capacity then
      (match peer with | some q => [.ok (q, chunk)] | none => []) ++ chunkLoop capacity peer [] rest
    else chunkLoop capacity peer chunk rest

/-- `SyncReceiver::try_chunks` (crates/pathfinder/src/sync/stream.rs lines 124-178). -/
def tryChunks (capacity : Nat) (xs : List (Item P E α)) : List (Item P E (List α)) :=
  chunkLoop capacity none [] xs

/-! ## The tasks -/

/-- What a task does with its input (crates/pathfinder/src/sync/stream.rs lines 85-119 and 129-175): `step` handles one
item and returns the items to send and whether to go on, `finish` is what is sent when the input channel is closed. -/
structure Program (V : Type) where
  State : Type
  init : State
  step : State → V → State × List V × Bool
  finish : State → List V

/-- A task of `SyncReceiver::pipe_impl` (crates/pathfinder/src/sync/stream.rs lines 85-119). `U` is a type that holds the
payloads of all stages. -/
def pipeProgram (map : σ → P → α → Except E (α × σ)) (s : σ) : Program (Item P E α) where
  State := σ
  init := s
  step s v :=
    match v with
    | .error e => (s, [.error e], false)
    | .ok (p, a) =>
      match map s p a with
      | .error e => (s, [.error e], false)
      | .ok (b, s') => (s', [.ok (p, b)], true)
  finish _ := []

/-- A task of `SyncReceiver::try_chunks` (crates/pathfinder/src/sync/stream.rs lines 129-175). `wrap` puts a chunk into
the common payload type. -/
def chunkProgram (capacity : Nat) (wrap : List α → α) : Program (Item P E α) where
  State := Option P × List α
  init := (none, [])
  step s v :=
    match v with
    | .error e => (s, (chunkRest s.1 s.2).map (·.map fun x => (x.1, wrap x.2)) ++ [.error e], false)
    | .ok (p, a) =>
      let peer := if s.2.isEmpty then some p else s.1
      let chunk := s.2 ++ [a]
      if chunk.length = capacity then
        ((peer, []), (match peer with | some q => [.ok (q, wrap chunk)] | none => []), true)
      else ((peer, chunk), [], true)
  finish s := (chunkRest s.1 s.2).map (·.map fun x => (x.1, wrap x.2))

/-- The life of a task: receiving, sending its last items, or gone with both channel ends dropped. -/
inductive Phase where
  | running
  | closing
  | gone
  deriving DecidableEq

/-- A task with its input channel (crates/pathfinder/src/sync/stream.rs lines 83-119): `room` is the channel's capacity,
`queue` what is in it, `out` the items the task has produced and not sent yet. -/
structure Task (V : Type) where
  program : Program V
  state : program.State
  room : Nat
  queue : List V
  out : List V
  phase : Phase

/-- The tasks from the source to the last stage, and what the consumer has received. -/
structure Network (V : Type) where
  tasks : List (Task V)
  received : List V

variable {V : Type}

/-- One task receives an item from its channel and processes it (crates/pathfinder/src/sync/stream.rs lines 87-114). -/
def Task.receive (t : Task V) (v : V) (rest : List V) : Task V :=
  let r := t.program.step t.state v
  { t with state := r.1, queue := rest, out := r.2.1, phase := if r.2.2 then .running else .closing }

/-- One step of some task. A task sends one item when the channel has room; it stops when the receiver is gone
(crates/pathfinder/src/sync/stream.rs lines 115-118). The consumer takes items as they come. -/
inductive Step : Network V → Network V → Prop
  /-- `blocking_recv` returns an item. -/
  | receive (pre post : List (Task V)) (t : Task V) (v : V) (rest r : List V) :
    t.phase = .running → t.out = [] → t.queue = v :: rest →
    Step ⟨pre ++ t :: post, r⟩ ⟨pre ++ t.receive v rest :: post, r⟩
  /-- `blocking_recv` returns nothing: the channel is empty and the sender is gone. -/
  | finish (pre post : List (Task V)) (u t : Task V) (r : List V) :
    u.phase = .gone → t.phase = .running → t.out = [] → t.queue = [] →
    Step ⟨pre ++ u :: t :: post, r⟩ ⟨pre ++ u :: { t with out := t.program.finish t.state, phase := .closing } :: post, r⟩
  /-- `blocking_send` succeeds. -/
  | send (pre post : List (Task V)) (t u : Task V) (v : V) (rest r : List V) :
    t.phase ≠ .gone → t.out = v :: rest → u.phase ≠ .gone → u.queue.length < u.room →
    Step ⟨pre ++ t :: u :: post, r⟩ ⟨pre ++ { t with out := rest } :: { u with queue := u.queue ++ [v] } :: post, r⟩
  /-- `blocking_send` fails because the receiver is gone. -/
  | hangup (pre post : List (Task V)) (t u : Task V) (r : List V) :
    t.phase ≠ .gone → t.out ≠ [] → u.phase = .gone →
    Step ⟨pre ++ t :: u :: post, r⟩ ⟨pre ++ { t with phase := .gone } :: u :: post, r⟩
  /-- The last task sends to the consumer. -/
  | deliver (pre : List (Task V)) (t : Task V) (v : V) (rest r : List V) :
    t.phase ≠ .gone → t.out = v :: rest →
    Step ⟨pre ++ [t], r⟩ ⟨pre ++ [{ t with out := rest }], r ++ [v]⟩
  /-- A task that has sent everything ends. -/
  | close (pre post : List (Task V)) (t : Task V) (r : List V) :
    t.phase = .closing → t.out = [] →
    Step ⟨pre ++ t :: post, r⟩ ⟨pre ++ { t with phase := .gone } :: post, r⟩

/-- The start of a pipeline: the source holds the input, the other tasks are fresh
(crates/pathfinder/src/sync/checkpoint.rs lines 314-326). -/
def start (input : List V) (stages : List (Program V × Nat)) : Network V where
  tasks := ⟨⟨Unit, (), fun _ _ => ((), [], false), fun _ => []⟩, (), 0, [], input, .closing⟩ ::
    stages.map fun s => ⟨s.1, s.1.init, s.2, [], [], .running⟩
  received := []

end Verif.Sync
