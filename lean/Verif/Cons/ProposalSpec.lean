import Verif.Cons.Proposal

/-!
# What a proposal should lead to

The words used by the theorems about proposals: a whole proposal and its parts, when it is good, the block it stands
for, and the order in which its parts and the news about the parent block reach the node.
-/
namespace Verif.Proposals

variable {X C K : Type}

/-- A whole proposal: block info, transaction batches, and the closing part. -/
structure Proposal (X C : Type) where
  init : Init
  batches : List (List X)
  fin : Fin' C

/-- The parts of a proposal in the order in which they are sent. -/
def Proposal.parts (p : Proposal X C) : List (Part X C) :=
  Part.init p.init :: (p.batches.map Part.batch ++ [Part.fin p.fin])

/-- Every transaction of the proposal, executed or not. -/
def Proposal.txs (p : Proposal X C) : List X := p.batches.flatten

/-- The transactions the proposer says are in the block. -/
def Proposal.executed (p : Proposal X C) : List X := p.txs.take p.fin.count

/-- A proposal with transactions for height `h`: at least one batch, no empty batch, a height that exists. -/
structure Proposal.WellFormed (p : Proposal X C) (h : Nat) : Prop where
  height : p.init.height = h
  pos : h ≠ 0
  max : h ≤ maxNumber
  some : p.batches ≠ []
  full : ∀ xs ∈ p.batches, xs ≠ []

/-- The block info is acceptable, all transactions execute, and the block has the commitment that was announced. -/
structure Proposal.Good (W : World X C K) (p : Proposal X C) : Prop where
  info : W.infoOk p.init = true
  exec : W.execOk p.init [] p.txs = true
  commit : W.commitment p.init p.executed = p.fin.commitment

/-- Executing a list of transactions is executing its parts one after the other. -/
def World.Sequential (W : World X C K) : Prop :=
  ∀ i d a b, W.execOk i d (a ++ b) = (W.execOk i d a && W.execOk i (d ++ a) b)

/-- What the engine is told about a proposal that was accepted. -/
def Proposal.report (p : Proposal X C) : Report C := ⟨p.fin.commitment, p.init.proposer, p.init.validRound⟩

/-- The block a proposal stands for: its height, its block info and the transactions the proposer says are in it. The
classes are those declared by its transactions; that is demanded here only if no transaction was left out. -/
structure Proposal.Stored (W : World X C K) (p : Proposal X C) (b : Block X K) : Prop where
  number : b.number = p.init.height
  init : b.init = some p.init
  txs : b.txs = p.executed
  declared : p.txs.length ≤ p.fin.count → b.declared = b.txs.filterMap W.declares

/-- What reaches the task for one height and round. `known` are the blocks decided or committed by then. -/
inductive Event (X C : Type)
  | part (known : Nat → Bool) (p : Part X C)
  | parent (known : Nat → Bool) (last : Bool)

/-- One event. -/
def step [DecidableEq C] (W : World X C K) (h : Nat) (s : Slot X C K) : Event X C → Res X C K
  | .part known p => handlePart W known h s p
  | .parent known last => parentDecided W known last s

/-- A sequence of events: the slot at the end and everything reported to the engine, or `none` if the task ended. -/
def process [DecidableEq C] (W : World X C K) (h : Nat) : Slot X C K → List (Event X C) → Option (Slot X C K × List (Report C))
  | s, [] => some (s, [])
  | s, e :: es =>
    match step W h s e with
    | .stop => none
    | .skipped s => process W h s es
    | .ok s rep => (process W h s es).map fun r => (r.1, rep.toList ++ r.2)

/-- The parts arrive when the parent block has already been decided. -/
def atOnce (known : Nat → Bool) (ps : List (Part X C)) : List (Event X C) := ps.map (.part known)

/-- The parent block is decided after `a` parts have been handled, and the task gets to know after `b` parts. -/
def late (before after : Nat → Bool) (a b : Nat) (ps : List (Part X C)) : List (Event X C) :=
  (ps.take a).map (.part before) ++ ((ps.take b).drop a).map (.part after) ++ .parent after true ::
    (ps.drop b).map (.part after)

/-- The block of height `h - 1` is not decided in `before` and is in `after`. -/
structure Learns (before after : Nat → Bool) (h : Nat) : Prop where
  before : before (h - 1) = false
  after : after (h - 1) = true

/-- Every `Init` among the parts is for the height of its stream. -/
def HeightsAgree (h : Nat) (es : List (Event X C)) : Prop :=
  ∀ known i, Event.part known (Part.init i) ∈ es → i.height = h

end Verif.Proposals
