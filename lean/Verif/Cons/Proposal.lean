import Verif.Cons.Parts

/-!
# From proposal parts to a block

What one height and round goes through in `crates/pathfinder/src/consensus/inner/p2p_task.rs`
(`handle_incoming_proposal_part`, `defer_or_execute_proposal_fin`, `execute_deferred_for_next_height`), in
`batch_execution.rs` and in `crates/validator/src/lib.rs`.

The maps of the task are keyed by height and round (`incoming_proposals`, `validator_cache`, `deferred_executions`,
`executing`, `finalized_blocks`); the model keeps the five entries of one key.

What a block is made of is a parameter, `World`. Storage errors are not modelled.
-/
namespace Verif.Proposals

/-- What executing a proposal means.

* `infoOk` is the outcome of the checks in `validate_block_info` once the parent is known (timestamp after the parent's, gas prices): validator/lib.rs:174-263.
* `execOk i done xs`: executing `xs` after `done` in the block of `i` succeeds. It covers mapping, hash verification and execution, validator/lib.rs:524-651.
* `commitment i done` is the state diff commitment of the block with exactly these transactions, `consensus_finalize0`.
* `declares` is the class a transaction declares. Simplification: whether it was reverted does not depend on the state. -/
structure World (X C K : Type) where
  infoOk : Init → Bool
  execOk : Init → List X → List X → Bool
  commitment : Init → List X → C
  declares : X → Option K

/-- `ValidatorTransactionBatchStage` (validator/lib.rs:497-515): block info, transactions executed so far, classes declared so far. -/
structure Run (X K : Type) where
  init : Init
  done : List X
  declared : List K
  deriving DecidableEq

/-- `ValidatorStage` (validator/lib.rs:899-902). -/
inductive Stage (X K : Type)
  | blockInfo (i : Init)
  | batches (r : Run X K)
  deriving DecidableEq

/-- `ProposalCommitmentWithOrigin` (batch_execution.rs:303-308). -/
structure Report (C : Type) where
  commitment : C
  proposer : Nat
  validRound : Option Nat
  deriving DecidableEq, Repr

/-- `DeferredExecution` (batch_execution.rs:295-300). -/
structure Deferred (X C : Type) where
  txs : List X := []
  commitment : Option (Report C) := none
  count : Option Nat := none
  deriving DecidableEq

/-- `ConsensusFinalizedL2Block`, by what it was made of. An empty block has no `init`. -/
structure Block (X K : Type) where
  number : Nat
  init : Option Init
  txs : List X
  declared : List K
  deriving DecidableEq

/-- The entries of one height and round. -/
structure Slot (X C K : Type) where
  parts : Option (Parts X C) := none
  stage : Option (Stage X K) := none
  deferred : Option (Deferred X C) := none
  executing : Bool := false
  final : Option (Block X K) := none
  deriving DecidableEq

/-- How handling can fail: `bad` is a recoverable error, `fatal` ends the task. -/
inductive Fail
  | bad
  | fatal
  deriving DecidableEq, Repr

/-- The outcome of one event: the new entries and what is reported to the consensus engine; a part that was skipped; or
the end of the task, which ends the node (main.rs:516-518). -/
inductive Res (X C K : Type)
  | ok (s : Slot X C K) (report : Option (Report C))
  | skipped (s : Slot X C K)
  | stop
  deriving DecidableEq

/-- The largest block number, `i64::MAX` (common/src/macros.rs:9-17). -/
def maxNumber : Nat := 2 ^ 63 - 1

variable {X C K : Type}

/-- `should_defer_validation` (validator/lib.rs:93-128). `known` tells the blocks that are decided or committed. -/
def shouldDefer (known : Nat → Bool) (h : Nat) : Except Fail Bool :=
  if h = 0 then .ok false
  else if maxNumber < h - 1 then .error .fatal
  else .ok (!known (h - 1))

/-- `validate_block_info` (validator/lib.rs:174-263, 344-396). Without the parent the `expect` at line 380 panics. -/
def validateInfo (W : World X C K) (known : Nat → Bool) (i : Init) : Except Fail (Run X K) :=
  if i.height ≠ 0 ∧ known (i.height - 1) = false then .error .fatal
  else if W.infoOk i then .ok ⟨i, [], []⟩
  else .error .bad

/-- `ValidatorTransactionBatchStage::execute_batch` (validator/lib.rs:524-651). -/
def Run.execute (W : World X C K) (r : Run X K) (xs : List X) : Except Fail (Run X K) :=
  if W.execOk r.init r.done xs then
    .ok { r with done := r.done ++ xs, declared := r.declared ++ xs.filterMap W.declares }
  else .error .bad

/-- `rollback_to_transaction` (validator/lib.rs:665-698): transactions, receipts and events are truncated. Called only
with `n` below the number of transactions, `process_executed_transaction_count` (batch_execution.rs:247-268). -/
def Run.rollback (r : Run X K) (n : Nat) : Run X K := { r with done := r.done.take n }

/-- `process_executed_transaction_count` (batch_execution.rs:222-275). A larger count is only logged. -/
def processCount (executing : Bool) (n : Nat) (r : Run X K) : Except Fail (Run X K) :=
  if executing = false then .error .fatal
  else if n < r.done.length then .ok (r.rollback n)
  else .ok r

/-- `consensus_finalize` (validator/lib.rs:761-787): the block's number is that of the block info. -/
def Run.finalize [DecidableEq C] (W : World X C K) (r : Run X K) (c : C) : Except Fail (Block X K) :=
  if W.commitment r.init r.done = c then .ok ⟨r.init.height, some r.init, r.done, r.declared⟩
  else .error .bad

/-- The validator for a deferred proposal: batch_execution.rs:119-134 and p2p_task.rs:1261-1275. -/
def Stage.start (W : World X C K) (known : Nat → Bool) : Stage X K → Except Fail (Run X K)
  | .blockInfo i => validateInfo W known i
  | .batches r => .ok r

/-- `try_into_transaction_batch_stage` (validator/lib.rs:927-937). -/
def Stage.running : Stage X K → Except Fail (Run X K)
  | .blockInfo _ => .error .bad
  | .batches r => .ok r

/-- The `Init` arm, p2p_task.rs:1071-1108: the next stage. -/
def onInit (W : World X C K) (known : Nat → Bool) (i : Init) : Except Fail (Stage X K) :=
  if maxNumber < i.height then .error .bad
  else (shouldDefer known i.height).bind fun defer =>
    if defer then .ok (.blockInfo i)
    else (validateInfo W known i).map .batches

/-- Processing a count that was deferred, if there was one: batch_execution.rs:163-174 and p2p_task.rs:881-896. -/
def countDeferred (executing : Bool) (n : Option Nat) (r : Run X K) : Except Fail (Run X K) :=
  match n with
  | none => .ok r
  | some n => processCount executing n r

/-- Executing a batch that is not deferred, batch_execution.rs:104-175. -/
def runBatch (W : World X C K) (known : Nat → Bool) (st : Stage X K) (d : Option (Deferred X C)) (xs : List X) :
    Except Fail (Run X K) :=
  match d with
  | none => st.running.bind fun r => r.execute W xs
  | some d =>
    (st.start W known).bind fun r => (r.execute W (d.txs ++ xs)).bind fun r =>
      countDeferred true d.count r

/-- The batch arm, p2p_task.rs:1110-1129 with `process_batch_with_deferral` (batch_execution.rs:72-177). The stage is
taken out of the cache first, and the deferred entry before execution; neither comes back on an error. -/
def onBatch (W : World X C K) (known : Nat → Bool) (h : Nat) (s : Slot X C K) (xs : List X) :
    Slot X C K × Except Fail (Option (Report C)) :=
  match s.stage with
  | none => (s, .error .bad)
  | some st =>
    match shouldDefer known h with
    | .error e => ({ s with stage := none }, .error e)
    | .ok true =>
      let d := s.deferred.getD {}
      ({ s with deferred := some { d with txs := d.txs ++ xs } }, .ok none)
    | .ok false =>
      match runBatch W known st s.deferred xs with
      | .error e => ({ s with stage := none, deferred := none }, .error e)
      | .ok r => ({ s with stage := some (.batches r), deferred := none, executing := true }, .ok none)

/-- `if !deferred.transactions.is_empty() { execute_batch }`, p2p_task.rs:872-878 and 1278-1289. -/
def Run.executeDeferred (W : World X C K) (r : Run X K) (xs : List X) : Except Fail (Run X K) :=
  if xs.isEmpty then .ok r else r.execute W xs

/-- Executing what was deferred when `Fin` arrives and is not deferred, p2p_task.rs:1258-1325, up to the block. -/
def runFin [DecidableEq C] (W : World X C K) (known : Nat → Bool) (executing : Bool) (st : Stage X K)
    (d : Option (Deferred X C)) (rep : Report C) (n : Nat) : Except Fail (Block X K × Report C) :=
  match d with
  | none =>
    st.running.bind fun r => (processCount executing n r).bind fun r =>
      (r.finalize W rep.commitment).map fun b => (b, rep)
  | some d =>
    (st.start W known).bind fun r =>
      (r.executeDeferred W d.txs).bind fun r =>
        (processCount (executing || !d.txs.isEmpty) n r).bind fun r =>
          let rep := d.commitment.getD rep
          (r.finalize W rep.commitment).map fun b => (b, rep)

/-- Does executing the deferred transactions mark execution as started? `execute_batch`, batch_execution.rs:186-215:
it does so before executing, so also when executing fails. -/
def startsExecution (W : World X C K) (known : Nat → Bool) (st : Stage X K) (d : Option (Deferred X C)) : Bool :=
  match d with
  | none => false
  | some d =>
    match st.start W known with
    | .ok _ => !d.txs.isEmpty
    | .error _ => false

/-- `defer_or_execute_proposal_fin` (p2p_task.rs:1218-1340). Its errors are made recoverable by the caller
(p2p_task.rs:1205-1207), a panic is not. -/
def onFin [DecidableEq C] (W : World X C K) (known : Nat → Bool) (h : Nat) (s : Slot X C K) (rep : Report C) (n : Nat) :
    Slot X C K × Except Fail (Option (Report C)) :=
  match shouldDefer known h with
  | .error _ => (s, .error .bad)
  | .ok true =>
    let d := s.deferred.getD {}
    ({ s with deferred := some { d with commitment := some rep, count := some n } }, .ok none)
  | .ok false =>
    match s.stage with
    | none => ({ s with deferred := none }, .error .bad)
    | some st =>
      let s' := { s with
        stage := none
        deferred := none
        executing := s.executing || startsExecution W known st s.deferred }
      match runFin W known s.executing st s.deferred rep n with
      | .ok (b, rep) => ({ s' with final := some b }, .ok (some rep))
      | .error .fatal =>
        -- the panic of `validate_block_info` ends the task; a missing execution mark is an error like others
        match s.deferred, st.start W known with
        | some _, .error .fatal => (s', .error .fatal)
        | _, _ => (s', .error .bad)
      | .error .bad => (s', .error .bad)

/-- `create_empty_block` (inner.rs:176-196); `new_or_panic` panics on a number that is too large. -/
def emptyBlock (h : Nat) : Except Fail (Block X K) :=
  if maxNumber < h then .error .fatal else .ok ⟨h, none, [], []⟩

/-- Who proposed, from the parts accepted so far: p2p_task.rs:1149-1162 and 1179-1184. -/
def Parts.report (v : Parts X C) (c : C) : Report C := ⟨c, v.proposer.getD 0, v.validRound⟩

/-- What a part that was accepted in its place does, p2p_task.rs:1070-1209. -/
def onPart [DecidableEq C] (W : World X C K) (known : Nat → Bool) (h : Nat) (s : Slot X C K) (v : Parts X C) (a : Accepted) :
    Part X C → Slot X C K × Except Fail (Option (Report C))
  | .init i =>
    match onInit W known i with
    | .ok st => ({ s with stage := some st }, .ok none)
    | .error e => (s, .error e)
  | .batch xs => onBatch W known h s xs
  | .fin f =>
    match a with
    | .nonEmpty => onFin W known h s (v.report f.commitment) f.count
    | _ =>
      match emptyBlock h with
      | .ok b => ({ s with final := some b }, .ok (some (v.report f.commitment)))
      | .error e => (s, .error e)

/-- A part arrives: `handle_incoming_proposal_part` (p2p_task.rs:1039-1210) and its caller (p2p_task.rs:275-331), which
drops the accepted parts after a recoverable error. -/
def handlePart [DecidableEq C] (W : World X C K) (known : Nat → Bool) (h : Nat) (s : Slot X C K) (p : Part X C) : Res X C K :=
  match (s.parts.getD .new).accept p with
  | none => .skipped { s with parts := none }
  | some (v, a) =>
    match onPart W known h { s with parts := some v } v a p with
    | (s, .ok rep) => .ok s rep
    | (s, .error .bad) => .skipped { s with parts := none }
    | (_, .error .fatal) => .stop

/-- The deferred work of the slot once its parent is decided, p2p_task.rs:859-921: what is left running, or the block. -/
def runDeferred [DecidableEq C] (W : World X C K) (known : Nat → Bool) (executing : Bool) (st : Stage X K) (d : Deferred X C) :
    Except Fail (Run X K × Option (Block X K × Report C)) :=
  match st with
  | .batches _ => .error .bad
  | .blockInfo i =>
    (validateInfo W known i).bind fun r =>
      (r.executeDeferred W d.txs).bind fun r =>
        (countDeferred (executing || !d.txs.isEmpty) d.count r).bind fun r =>
          match d.commitment with
          | none => .ok (r, none)
          | some rep => (r.finalize W rep.commitment).map fun b => (r, some (b, rep))

/-- The parent block is decided or committed: `execute_deferred_for_next_height` (p2p_task.rs:828-921) as called from
`on_finalized_block_decided` (p2p_task.rs:769-801). Every entry of the height is taken out, and only the last round is
executed; `last` says whether this slot is it. An error is passed on with `?` and ends the task. -/
def parentDecided [DecidableEq C] (W : World X C K) (known : Nat → Bool) (last : Bool) (s : Slot X C K) : Res X C K :=
  match s.deferred with
  | none => .ok s none
  | some d =>
    if last = false then .ok { s with deferred := none } none
    else
      match s.stage with
      | none => .stop
      | some st =>
        match runDeferred W known s.executing st d with
        | .error _ => .stop
        | .ok (r, none) =>
          .ok { s with
            stage := some (.batches r)
            deferred := none
            executing := s.executing || !d.txs.isEmpty } none
        | .ok (_, some (b, rep)) =>
          .ok { s with
            stage := none
            deferred := none
            executing := s.executing || !d.txs.isEmpty
            final := some b } (some rep)

end Verif.Proposals
