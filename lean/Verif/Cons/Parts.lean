/-
The order of proposal parts, and which consensus messages a node ignores as
outdated.

Models
* crates/pathfinder/src/consensus/inner/proposal_validator.rs
* crates/pathfinder/src/consensus/inner/p2p_task.rs:930-985
-/

namespace Verif.Proposals

/-- `ProposalInit`, crates/p2p_proto/src/consensus.rs.

The fields that describe the block beyond its height (timestamp, gas prices,
builder, data availability mode) are kept together as `info`. -/
structure Init where
  height : Nat
  proposer : Nat
  validRound : Option Nat
  info : Nat
  deriving DecidableEq, Repr

/-- `ProposalFin`: the proposal commitment and the executed transaction count. -/
structure Fin' (C : Type) where
  commitment : C
  count : Nat
  deriving DecidableEq, Repr

/-- `ProposalPart`, crates/p2p_proto/src/consensus.rs. -/
inductive Part (X C : Type) where
  | init (i : Init)
  | batch (xs : List X)
  | fin (f : Fin' C)
  deriving DecidableEq, Repr

/-- `ProposalPartsValidator`, proposal_validator.rs:14-22.

`height_and_round` is only used in messages and `transaction_batch_count` is
never read; both are left out. -/
structure Parts (X C : Type) where
  parts : List (Part X C)
  hasInit : Bool
  hasFin : Bool
  proposer : Option Nat
  validRound : Option Nat
  deriving DecidableEq, Repr

/-- `ProposalPartsValidator::new`, proposal_validator.rs:36-46. -/
def Parts.new {X C : Type} : Parts X C :=
  { parts := [], hasInit := false, hasFin := false, proposer := none, validRound := none }

/-- `ValidationResult`, proposal_validator.rs:26-33. -/
inductive Accepted where
  | accepted
  | empty
  | nonEmpty
  deriving DecidableEq, Repr

/-- `accept_init`, proposal_validator.rs:79-102.  `none` is the recoverable error. -/
def Parts.acceptInit {X C : Type} (v : Parts X C) (i : Init) : Option (Parts X C × Accepted) :=
  if !v.parts.isEmpty then none
  else
    some ({ v with
      hasInit := true
      proposer := some i.proposer
      validRound := i.validRound
      parts := v.parts ++ [.init i] }, .accepted)

/-- `accept_transaction_batch`, proposal_validator.rs:104-135. -/
def Parts.acceptBatch {X C : Type} (v : Parts X C) (xs : List X) :
    Option (Parts X C × Accepted) :=
  if v.parts.isEmpty then none
  else if xs.isEmpty then none
  else some ({ v with parts := v.parts ++ [.batch xs] }, .accepted)

/-- `accept_fin`, proposal_validator.rs:137-175. -/
def Parts.acceptFin {X C : Type} (v : Parts X C) (f : Fin' C) : Option (Parts X C × Accepted) :=
  if v.hasFin then none
  else if v.parts.length = 1 ∧ v.hasInit = true then
    some ({ v with hasFin := true, parts := v.parts ++ [.fin f] }, .empty)
  else if 2 ≤ v.parts.length ∧ v.hasInit = true then
    some ({ v with hasFin := true, parts := v.parts ++ [.fin f] }, .nonEmpty)
  else none

/-- `accept_part`, proposal_validator.rs:49-60. -/
def Parts.accept {X C : Type} (v : Parts X C) : Part X C → Option (Parts X C × Accepted)
  | .init i => v.acceptInit i
  | .batch xs => v.acceptBatch xs
  | .fin f => v.acceptFin f

/-- The part being accepted one after the other by one validator, until the
first is refused: the loop of arriving parts, p2p_task.rs:1058-1068. -/
def Parts.acceptAll {X C : Type} (v : Parts X C) : List (Part X C) → Option (Parts X C)
  | [] => some v
  | p :: ps => (v.accept p).bind fun r => r.1.acceptAll ps

/-- `is_outdated_p2p_event`, p2p_task.rs:930-985: is a message for height `h`
dropped?  `incoming` are the heights of the proposals being received, whether
decided or not; `committed` is the newest block in the database. -/
def isOutdated (incoming : List Nat) (committed : Option Nat) (depth h : Nat) : Bool :=
  match incoming.max? with
  | some latest => decide (h < latest - depth)
  | none =>
    match committed with
    | some latest => decide (h < latest - depth)
    | none => false

end Verif.Proposals
