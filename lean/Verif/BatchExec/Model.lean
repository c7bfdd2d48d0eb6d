/-!
# Executing a proposal in batches (C117)

`ConcurrentBlockExecutor` (`crates/executor/src/concurrent_block.rs:37-243`) and the lists of
`ValidatorTransactionBatchStage` (`crates/validator/src/lib.rs:496-695`, `790-826`).

The library that executes is a parameter: `out l` is the outcome of the last transaction of `l` after the others were
executed, and a batch that is added gets one outcome per transaction, as without a deadline and without a limit of
resources (`lib.rs:594`, `concurrent_block.rs:331`). Closing a block with `n` commits the first `n` transactions
that were added (`concurrent_block.rs:226-244`).

Simplified: declared classes are in `Verif/Exec`; conversion of transactions and the check of hashes, which come before
anything changes (`lib.rs:545-577`), are one test.
-/

namespace Verif.BatchExec

/-- A transaction as far as it matters here. -/
structure Tx where
  hash : Nat
  body : Nat
  valid : Bool
deriving DecidableEq, Repr

/-- What the execution of a transaction gives: the rest of its receipt, and its events. -/
structure Content where
  receipt : Nat
  events : List Nat
deriving DecidableEq, Repr

/-- The library: the outcome of the last transaction of a list; `none` is an error. -/
abbrev Library := List Tx → Option Content

/-- `ConcurrentBlockExecutor` (37-43). -/
structure Executor where
  added : List Tx
  results : List (Nat × Content)
  total : Nat
deriving DecidableEq, Repr

/-- The outcomes of the transactions of a batch, in order (164). -/
def outcomes (lib : Library) (before : List Tx) : List Tx → List (Option Content)
  | [] => []
  | t :: l => lib (before ++ [t]) :: outcomes lib (before ++ [t]) l

/-- The loop over outcomes (166-195): the results that were kept, and whether there was no error. -/
def collect (i : Nat) : List (Option Content) → List (Nat × Content) × Bool
  | [] => ([], true)
  | none :: _ => ([], false)
  | some c :: l => ((i, c) :: (collect (i + 1) l).1, (collect (i + 1) l).2)

/-- `execute` (133-200). -/
def Executor.execute (lib : Library) (x : Executor) (txs : List Tx) : Executor × Option (List (Nat × Content)) :=
  if txs = [] then (x, some [])
  else
    let r := collect x.total (outcomes lib x.added txs)
    let x' : Executor := { x with added := x.added ++ txs, results := x.results ++ r.1 }
    if r.2 then ({ x' with total := x.total + txs.length }, some r.1)
    else (x', none)

/-- A receipt of the proposal (lib.rs:616-627). -/
structure Receipt where
  hash : Nat
  index : Nat
  content : Nat
deriving DecidableEq, Repr

/-- `ValidatorTransactionBatchStage` (lib.rs:496-520). -/
structure Stage where
  txs : List Tx
  receipts : List Receipt
  events : List (List Nat)
  executor : Option Executor
deriving DecidableEq, Repr

/-- A new stage (lib.rs:257, 335). -/
def Stage.new : Stage := ⟨[], [], [], none⟩

/-- The receipts of a batch (lib.rs:610-628). -/
def makeReceipts (base : Nat) : List (Nat × Content) → List Tx → List Receipt
  | r :: rs, t :: ts => ⟨t.hash, base, r.2.receipt⟩ :: makeReceipts (base + 1) rs ts
  | _, _ => []

/-- `execute_batch` (lib.rs:524-658): the stage afterwards, and whether there was no error. -/
def Stage.batch (lib : Library) (s : Stage) (txs : List Tx) : Stage × Bool :=
  if txs = [] then (s, true)
  else if txs.all (·.valid) then
    let x := s.executor.getD ⟨[], [], 0⟩
    match x.execute lib txs with
    | (x', none) => ({ s with executor := some x' }, false)
    | (x', some rs) =>
      ({ txs := s.txs ++ txs
         receipts := s.receipts ++ makeReceipts s.txs.length rs txs
         events := s.events ++ rs.map (·.2.events)
         executor := some x' }, true)
  else (s, false)

/-- `rollback_to_transaction` (lib.rs:665-695): `none` is the error. -/
def Stage.rollback (s : Stage) (n : Nat) : Option Stage :=
  if n > s.txs.length then none
  else if n = s.txs.length then some s
  else some { s with txs := s.txs.take n, receipts := s.receipts.take n, events := s.events.take n }

/-- The transactions whose changes are in the state of the finished block (lib.rs:812-826). -/
def Stage.committed (s : Stage) : List Tx :=
  match s.executor with
  | none => []
  | some x => x.added.take s.txs.length

end Verif.BatchExec
