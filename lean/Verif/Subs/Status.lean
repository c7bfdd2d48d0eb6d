/-!
# The transaction status subscription

Models `starknet_subscribeTransactionStatus`: `crates/rpc/src/method/subscribe_transaction_status.rs` 130-490, for one
transaction, beside the sync task that commits and announces blocks (`crates/pathfinder/src/state/sync.rs` 1040-1053).

A block is what matters of it here: whether it has the transaction and with which execution status.  The transaction is
in at most one block of a chain; `findTx` gives the first.

Simplifications.  Channels are unbounded.  What is read while one announced block is handled (the tracker and the L1
state, lines 247-320) is read in one step.  Reading the pending data when it has not changed is allowed at any time; it
sends nothing new.  The client stays connected.
-/

namespace Verif.Subs.Status

/-- `FinalityStatus` (lines 29-41). -/
inductive Fin where
  | received
  | candidate
  | preConfirmed
  | acceptedOnL2
  | acceptedOnL1
  | rejected
deriving DecidableEq, Repr

/-- `FinalityStatus::as_num` (lines 492-503). -/
def Fin.num : Fin → Nat
  | .received => 0
  | .candidate => 1
  | .preConfirmed => 2
  | .acceptedOnL2 => 3
  | .acceptedOnL1 => 4
  | .rejected => 5

/-- A block number, a finality status and, if known, an execution status. -/
structure Report where
  number : Nat
  fin : Fin
  exec : Option Nat
deriving DecidableEq, Repr

/-- What the client gets: a status (lines 470-484) or a reorg notice (lines 203-208). -/
inductive Out where
  | status (r : Report)
  | reorg (start : Nat)
deriving DecidableEq, Repr

/-- What the sync task still has to announce. -/
inductive Note where
  | block (number : Nat) (exec : Option Nat)
  | reorg (start : Nat)
deriving DecidableEq, Repr

/-- Where the task is: before reading the database, before reading the pending data, before subscribing to blocks, before
subscribing to reorgs, in the inner loop, or finished. -/
inductive Phase where
  | readDb
  | readPending
  | openBlocks
  | openReorgs
  | listen
  | done
deriving DecidableEq, Repr

structure Sys where
  /-- The stored chain: for each block the execution status of the transaction if the block has it. -/
  chain : List (Option Nat)
  /-- The latest L1 state's block number. -/
  l1 : Option Nat
  /-- What `pending_data_tx_status` (lines 399-443) finds in the pending data. -/
  pre : Option Report
  /-- `SubmittedTransactionTracker::get_block`. -/
  submitted : Option Nat
  pending : Option Note
  phase : Phase
  blocks : List (Nat × Option Nat)
  reorgs : List Nat
  /-- `Sender::last_*`. -/
  last : Option Report
  out : List Out
deriving DecidableEq, Repr

/-- `Sender::send_and_update` (lines 458-486). -/
def send (s : Sys) (r : Report) : Sys :=
  if s.last.any (fun l => decide (r.fin.num ≤ l.fin.num)) then s
  else { s with last := some r, out := s.out ++ [.status r] }

/-- `transaction_with_receipt`: where the transaction is and its execution status. -/
def findTx : List (Option Nat) → Nat → Option (Nat × Nat)
  | [], _ => none
  | some e :: _, n => some (n, e)
  | none :: rest, n => findTx rest (n + 1)

/-- The status of a transaction found in the database (lines 366-388). -/
def stored (l1 : Option Nat) (n e : Nat) : Report :=
  match l1 with
  | some l => if n ≤ l then ⟨l, .acceptedOnL1, some e⟩ else ⟨n, .acceptedOnL2, some e⟩
  | none => ⟨n, .acceptedOnL2, some e⟩

/-- The status of a transaction that is not in the database (lines 390-397). -/
def unstored (pre : Option Report) (submitted : Option Nat) : Option Report :=
  match pre with
  | some r => some r
  | none => submitted.map fun n => ⟨n, .received, none⟩

/-- `send` if there is something to send. -/
def sendOpt (s : Sys) : Option Report → Sys
  | none => s
  | some r => send s r

/-- Handling an announced block (lines 241-320): the tracker; the block; the L1 state, if it is at or above the block last
reported and an execution status was reported. -/
def onBlock (s : Sys) (n : Nat) (exec : Option Nat) : Sys :=
  let s₁ := sendOpt s (s.submitted.map fun k => ⟨k, .received, none⟩)
  let s₂ := sendOpt s₁ (exec.map fun e => ⟨n, .acceptedOnL2, some e⟩)
  sendOpt s₂ (s₂.l1.bind fun l => s₂.last.bind fun r =>
    if r.number ≤ l ∧ r.exec.isSome then some ⟨l, .acceptedOnL1, r.exec⟩ else none)

/-- The steps of the world and of the subscription. -/
inductive Act where
  /-- The sync task commits a block. -/
  | commit (exec : Option Nat)
  /-- The sync task removes the blocks from `k` on. -/
  | reorg (k : Nat)
  | announce
  | setL1 (l : Nat)
  | setPre (r : Option Report)
  | submit (n : Option Nat)
  | readDb
  | readPending
  | openBlocks
  | openReorgs
  /-- The gateway says that the transaction was rejected (lines 181-196). -/
  | tickRejected
  | takeReorg
  | takePending
  | takeBlock
deriving DecidableEq, Repr

/-- Announcing: a receiver gets what is sent after it subscribed. -/
def announce (s : Sys) : Note → Sys
  | .block n e => { s with pending := none, blocks := if s.phase = .openReorgs ∨ s.phase = .listen then s.blocks ++ [(n, e)] else s.blocks }
  | .reorg k => { s with pending := none, reorgs := if s.phase = .listen then s.reorgs ++ [k] else s.reorgs }

/-- One step; `none` when it cannot be taken.  The `select!` is biased: a block is handled only when no reorg is there
(lines 176-178). -/
def step (s : Sys) : Act → Option Sys
  | .commit e => if s.pending = none then some { s with chain := s.chain ++ [e], pending := some (.block s.chain.length e) } else none
  | .reorg k => if s.pending = none ∧ k < s.chain.length then some { s with chain := s.chain.take k, pending := some (.reorg k) } else none
  | .announce => s.pending.map (announce s)
  | .setL1 l => some { s with l1 := some l }
  | .setPre r => some { s with pre := r }
  | .submit n => some { s with submitted := n }
  | .readDb => if s.phase = .readDb then
      (findTx s.chain 0).elim (some { s with phase := .readPending }) fun p => some { send s (stored s.l1 p.1 p.2) with phase := .openBlocks }
    else none
  | .readPending => if s.phase = .readPending then some { sendOpt s (unstored s.pre s.submitted) with phase := .openBlocks } else none
  | .openBlocks => if s.phase = .openBlocks then some { s with phase := .openReorgs } else none
  | .openReorgs => if s.phase = .openReorgs then some { s with phase := .listen } else none
  | .tickRejected => if s.phase = .listen then some { send s ⟨0, .rejected, none⟩ with phase := .done } else none
  | .takeReorg => if s.phase = .listen then match s.reorgs with
      | k :: _ => some { s with out := s.out ++ [.reorg k], last := none, phase := .readDb, blocks := [], reorgs := [] }
      | [] => none
    else none
  | .takePending => if s.phase = .listen then some (sendOpt s s.pre) else none
  | .takeBlock => if s.phase = .listen ∧ s.reorgs = [] then match s.blocks with
      | b :: rest => some { onBlock s b.1 b.2 with blocks := rest }
      | [] => none
    else none

/-- A schedule. -/
def run (s : Sys) : List Act → Option Sys
  | [] => some s
  | a :: as => (step s a).bind fun t => run t as

/-- The subscription starts; the rest of the world is as it is. -/
def Fresh (s : Sys) : Prop :=
  s.phase = .readDb ∧ s.blocks = [] ∧ s.reorgs = [] ∧ s.last = none ∧ s.out = [] ∧
    (s.pending = none ∨ (∃ k, s.pending = some (.reorg k)) ∨
      ∃ e, s.pending = some (.block (s.chain.length - 1) e) ∧ s.chain[s.chain.length - 1]? = some e)

/-- What `pending_data_tx_status` can give: a candidate has no execution status, a pre-confirmed one has. -/
def PreOk : Option Report → Prop
  | none => True
  | some r => (r.fin = .candidate ∧ r.exec = none) ∨ (r.fin = .preConfirmed ∧ r.exec.isSome = true)

/-- The pending data only ever has such reports. -/
def Act.preOk : Act → Prop
  | .setPre r => PreOk r
  | _ => True

end Verif.Subs.Status
