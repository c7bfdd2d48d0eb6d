/-!
# The driver of a consensus engine

Models crates/consensus/src/internal.rs (the queue of commands, timeouts, the handling of
effects, recovery) and the conversions in crates/consensus/src/internal/wal.rs.

Simplifications: the Malachite core is a function from its state and an input to its new
state, the effects that it asks for and whether it failed; the values with which the driver
answers effects are constants (internal.rs:310-470) and belong to that function.  Signed
votes, signed proposals and values are opaque; their conversions field by field
(internal/malachite.rs) are not modelled.  The clock is the list of its readings.
-/

namespace Verif.Drive

/-- `malachite_types::TimeoutKind`. -/
inductive Kind where
  | propose
  | prevote
  | precommit
  | rebroadcast
deriving DecidableEq

/-- `malachite_types::Timeout`; a round may be nil. -/
structure Timeout where
  kind : Kind
  round : Option Nat
deriving DecidableEq

/-- internal.rs:543-546 `ScheduledTimeout`. -/
structure Sched where
  timeout : Timeout
  due : Nat
deriving DecidableEq

/-- consensus/src/wal.rs:66-88 `WalEntry`: `P`, `W`, `Q`, `V` are signed proposals, signed
votes, proposed values and values. -/
inductive Entry (P W Q V : Type) where
  | proposal (p : P)
  | vote (w : W)
  | timeout (kind : String) (round : Option Nat)
  | proposed (q : Q)
  | decision (height : Nat) (value : V)
deriving DecidableEq

/-- `malachite_consensus::WalEntry`. -/
inductive CoreEntry (P W Q : Type) where
  | proposal (p : P)
  | vote (w : W)
  | timeout (t : Timeout)
  | proposed (q : Q)
deriving DecidableEq

/-- `ConsensusCommand`: `L` are values that this node proposes, `H` a height and its
validators. -/
inductive Cmd (P W L H : Type) where
  | vote (w : W)
  | proposal (p : P)
  | propose (l : L)
  | startHeight (h : H)
deriving DecidableEq

/-- `malachite_consensus::Input`. -/
inductive Input (P W Q L H : Type) where
  | vote (w : W)
  | proposal (p : P)
  | propose (l : L)
  | startHeight (h : H)
  | timeout (t : Timeout)
  | proposed (q : Q)
deriving DecidableEq

/-- `malachite_consensus::Effect`: those that do something here; `other` for the rest. -/
inductive Effect (P W Q V : Type) where
  | publishProposal (p : P)
  | publishVote (w : W)
  | getValue (height : Nat) (round : Option Nat)
  | decide (height : Nat) (round : Option Nat) (value : V)
  | restream (p : P)
  | republish (w : W)
  | schedule (t : Timeout)
  | cancel (t : Timeout)
  | cancelAll
  | reset
  | append (e : CoreEntry P W Q)
  | other
deriving DecidableEq

/-- `ConsensusEvent`. -/
inductive Event (P W V : Type) where
  | gossipProposal (p : P)
  | gossipVote (w : W)
  | request (height round : Nat)
  | decision (height round : Nat) (value : V)
  | error
deriving DecidableEq

/-- What happened, in order; kept for the specification only. -/
inductive Hist (P W Q L H : Type) where
  /-- the core was given an input -/
  | fed (i : Input P W Q L H)
  /-- a timeout was found to be over, at a reading of the clock -/
  | fired (t : Timeout) (now : Nat)
  | scheduled (t : Timeout) (now : Nat)
  | cancelled (t : Timeout)
  | cancelledAll
  | reset (now : Nat)
deriving DecidableEq

/-- The core, the clock's readings, the durations, which of several timeouts that are due
first comes first, and the round of a vote. -/
structure Env (P W Q V L H S : Type) where
  core : S → Input P W Q L H → S × List (Effect P W Q V) × Bool
  clock : Nat → Nat
  duration : Kind → Nat
  first : List Sched → Option Sched
  roundOf : W → Option Nat

/-- internal.rs:57-74 `InternalConsensus`, with the sink of the log (wal.rs:91-165): its lines,
whether a decision is marked, and whether there is a file (`FileWalSink`) or none
(`NoopWal`). -/
structure St (P W Q V L H S : Type) where
  core : S
  queue : List (Cmd P W L H)
  out : List (Event P W V)
  heap : List Sched
  log : List (Entry P W Q V)
  marked : Bool
  file : Bool
  reads : Nat
  hist : List (Hist P W Q L H)

variable {P W Q V L H S : Type}

/-- internal/wal.rs:36-47: the name of a kind. -/
def Kind.name : Kind → String
  | .propose => "propose"
  | .prevote => "prevote"
  | .precommit => "precommit"
  | .rebroadcast => "rebroadcast"

/-- internal/wal.rs:115-121: and back; any other name is `unreachable!()`. -/
def kindOf (s : String) : Option Kind :=
  if s = "propose" then some .propose
  else if s = "prevote" then some .prevote
  else if s = "precommit" then some .precommit
  else if s = "rebroadcast" then some .rebroadcast
  else none

/-- internal/wal.rs:10-61 `From<MalachiteWalEntry>`. -/
def toEntry : CoreEntry P W Q → Entry P W Q V
  | .proposal p => .proposal p
  | .vote w => .vote w
  | .timeout t => .timeout t.kind.name t.round
  | .proposed q => .proposed q

/-- internal/wal.rs:81-158 `convert_wal_entry_to_input`; `none` is a panic. -/
def toInput : Entry P W Q V → Option (Input P W Q L H)
  | .proposal p => some (.proposal p)
  | .vote w => some (.vote w)
  | .timeout k r => (kindOf k).map fun k => .timeout ⟨k, r⟩
  | .proposed q => some (.proposed q)
  | .decision _ _ => none

/-- internal.rs:205-255: the input for a command. -/
def Cmd.input : Cmd P W L H → Input P W Q L H
  | .vote w => .vote w
  | .proposal p => .proposal p
  | .propose l => .propose l
  | .startHeight h => .startHeight h

/-- wal.rs:128-142, 158-161 `append`: `FileWalSink` writes and marks a decision, `NoopWal` does
neither. -/
def St.append (st : St P W Q V L H S) (e : Entry P W Q V) : St P W Q V L H S :=
  if st.file then
    { st with log := st.log ++ [e], marked := st.marked || (match e with | .decision _ _ => true | _ => false) }
  else st

/-- wal.rs:144-150, 163-165: `is_finalized` and `mark_as_finalized`. -/
def St.isFinalized (st : St P W Q V L H S) : Bool := st.file && st.marked

def St.emit (st : St P W Q V L H S) (e : Event P W V) : St P W Q V L H S := { st with out := st.out ++ [e] }

variable (env : Env P W Q V L H S)

/-- internal.rs:585-596 `schedule_timeout`. -/
def St.schedule (st : St P W Q V L H S) (t : Timeout) : St P W Q V L H S :=
  { st with
    heap := ⟨t, env.clock st.reads + env.duration t.kind⟩ :: st.heap
    reads := st.reads + 1
    hist := st.hist ++ [.scheduled t (env.clock st.reads)] }

/-- internal.rs:289-472 `handle_effect`; `none` is a panic, if a round is nil. -/
def St.apply (st : St P W Q V L H S) : Effect P W Q V → Option (St P W Q V L H S)
  | .publishProposal p => some (st.emit (.gossipProposal p))
  | .publishVote w => some (st.emit (.gossipVote w))
  | .getValue h r =>
    match r with
    | some r => some (st.emit (.request h r))
    | none => none
  | .decide h r v =>
    match r with
    | some r => some ((st.emit (.decision h r v)).append (.decision h v))
    | none => none
  | .restream p => some (st.emit (.gossipProposal p))
  | .republish w => some (st.emit (.gossipVote w))
  | .schedule t => some (st.schedule env t)
  | .cancel t => some { st with heap := st.heap.filter (fun s => s.timeout ≠ t), hist := st.hist ++ [.cancelled t] }
  | .cancelAll => some { st with heap := [], hist := st.hist ++ [.cancelledAll] }
  | .reset =>
    some { st with
      heap := st.heap.map (fun s => { s with due := env.clock st.reads + env.duration s.timeout.kind })
      reads := st.reads + 1
      hist := st.hist ++ [.reset (env.clock st.reads)] }
  | .append e => some (st.append (toEntry e))
  | .other => some st

def St.applyAll (st : St P W Q V L H S) : List (Effect P W Q V) → Option (St P W Q V L H S)
  | [] => some st
  | e :: es =>
    match st.apply env e with
    | some st => st.applyAll es
    | none => none

/-- internal.rs:267-283 `process_input`, and the event for an error (internal.rs:138-141,
194-197, 257-260). -/
def St.process (st : St P W Q V L H S) (i : Input P W Q L H) : Option (St P W Q V L H S) :=
  let r := env.core st.core i
  match ({ st with core := r.1, hist := st.hist ++ [.fed i] } : St P W Q V L H S).applyAll env r.2.1 with
  | none => none
  | some st => some (if r.2.2 then st.emit .error else st)

/-- The result of a loop: an answer, a panic, or nothing within the steps allowed. -/
inductive Res (α : Type) where
  | ok (a : α)
  | panic
  | more
deriving DecidableEq

/-- internal.rs:177-198: the timeouts that are due at `now`, each looked up again after the one
before was handled. -/
def St.drain (now : Nat) : Nat → St P W Q V L H S → Res (St P W Q V L H S)
  | 0, _ => .more
  | fuel + 1, st =>
    match env.first st.heap with
    | none => .ok st
    | some s =>
      if now < s.due then .ok st
      else
        match ({ st with heap := st.heap.erase s, hist := st.hist ++ [.fired s.timeout now] } : St P W Q V L H S).process env (.timeout s.timeout) with
        | none => .panic
        | some st => St.drain now fuel st

/-- internal.rs:200-261: the next command, if there is one. -/
def St.command (st : St P W Q V L H S) : Option (St P W Q V L H S) :=
  match st.queue with
  | [] => some st
  | c :: cs => ({ st with queue := cs } : St P W Q V L H S).process env c.input

/-- internal.rs:174-264 `poll_internal`. -/
def St.poll (fuel : Nat) (st : St P W Q V L H S) : Res (St P W Q V L H S × Option (Event P W V)) :=
  match ({ st with reads := st.reads + 1 } : St P W Q V L H S).drain env (env.clock st.reads) fuel with
  | .panic => .panic
  | .more => .more
  | .ok st =>
    match st.command env with
    | none => .panic
    | some st =>
      match st.out with
      | [] => .ok (st, none)
      | e :: es => .ok ({ st with out := es }, some e)

/-- internal.rs:168-171 `handle_command`. -/
def St.submit (st : St P W Q V L H S) (c : Cmd P W L H) : St P W Q V L H S := { st with queue := st.queue ++ [c] }

/-- internal.rs:77-104 `new`, with `create_consensus` (lib.rs:609-642): without a file if it
cannot be opened; lines that are there already stay. -/
def engine (s : S) (file : Bool) (log : List (Entry P W Q V)) : St P W Q V L H S :=
  { core := s, queue := [], out := [], heap := [], log := log, marked := false, file := file, reads := 0, hist := [] }

def Entry.isDecision : Entry P W Q V → Bool
  | .decision _ _ => true
  | _ => false

/-- `Option::max`: nothing is less than something. -/
def maxRound : Option Nat → Option Nat → Option Nat
  | none, b => b
  | a, none => a
  | some a, some b => some (max a b)

/-- internal.rs:266-272 `get_vote_round`. -/
def Entry.voteRound : Entry P W Q V → Option Nat
  | .vote w => env.roundOf w
  | _ => none

/-- internal.rs:121-150: the loop over the entries. -/
def St.replay (st : St P W Q V L H S) (round : Option Nat) : List (Entry P W Q V) → Option (St P W Q V L H S × Option Nat)
  | [] => some (st, round)
  | e :: es =>
    if e.isDecision then st.replay round es
    else
      match toInput e with
      | none => none
      | some i =>
        match st.process env i with
        | none => none
        | some st => st.replay (maxRound round (e.voteRound env)) es

/-- internal.rs:107-158 `recover_from_wal`. -/
def St.recover (st : St P W Q V L H S) (entries : List (Entry P W Q V)) : Option (St P W Q V L H S × Option Nat) :=
  ({ st with marked := st.marked || (st.file && entries.any (·.isDecision)) } : St P W Q V L H S).replay env none entries

/-- lib.rs:541-549, 579-583: `schedule_rebroadcast` if there was a vote. -/
def St.rebroadcast (st : St P W Q V L H S) : Option Nat → St P W Q V L H S
  | none => st
  | some r => st.schedule env ⟨.rebroadcast, some r⟩

/-- lib.rs:565-585: an engine for a height that is not finished. -/
def restart (s : S) (file : Bool) (entries : List (Entry P W Q V)) (h : H) : Option (St P W Q V L H S) :=
  match ((engine s file entries).submit (.startHeight h)).recover env entries with
  | none => none
  | some (st, r) => some (st.rebroadcast env r)

/-- lib.rs:536-556: an engine for a height that is finished. -/
def restore (s : S) (file : Bool) (entries : List (Entry P W Q V)) (h : H) : Option (St P W Q V L H S) :=
  match (engine s file entries).recover env entries with
  | none => none
  | some (st, r) =>
    let st := st.rebroadcast env r
    some (if st.isFinalized then st else st.submit (.startHeight h))

/-- What a caller does. -/
inductive Op (P W L H : Type) where
  | submit (c : Cmd P W L H)
  /-- `poll_internal`; `fuel` bounds the timeouts handled in it -/
  | poll (fuel : Nat)
deriving DecidableEq

/-- A run: the engine and the events that it returned. -/
def run (st : St P W Q V L H S) (evs : List (Event P W V)) : List (Op P W L H) → Res (St P W Q V L H S × List (Event P W V))
  | [] => .ok (st, evs)
  | .submit c :: ops => run (st.submit c) evs ops
  | .poll fuel :: ops =>
    match st.poll env fuel with
    | .panic => .panic
    | .more => .more
    | .ok (st, e) => run st (evs ++ e.toList) ops

end Verif.Drive
