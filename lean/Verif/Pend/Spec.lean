import Verif.Pend.Model
import Verif.State.Spec
/-!
# Specification of queries about pending blocks

What a list of state differences says about a nonce, a storage cell or a class, independent of how the program merges them: the last one
that says something counts. An ordinary contract that exists and has no nonce or value has zero.
-/
namespace Verif.Pend
open Verif (State.Update)

/-- The nonce that the difference gives to a contract. -/
def GDiff.nonceOf (d : GDiff) (a : Nat) : Option Nat := d.nonces.lookup a

/-- The value that the difference writes to a storage cell: the last one listed. -/
def GDiff.storageOf (d : GDiff) (a k : Nat) : Option Nat := (d.storage.lookup a).bind fun v => v.reverse.lookup k

/-- The class with which the difference deploys a contract. -/
def GDiff.deploys (d : GDiff) (a : Nat) : Option Nat := d.deployed.reverse.lookup a

/-- The class by which the difference replaces the one of a contract. -/
def GDiff.replaces (d : GDiff) (a : Nat) : Option Nat := d.replaced.reverse.lookup a

/-- The class that a contract has after the difference, if it changes. -/
def GDiff.classOf (d : GDiff) (a : Nat) : Option Nat := (d.replaces a).or (d.deploys a)

/-- The maps of the difference have distinct keys, and the system contracts have storage only. -/
structure GDiff.Ok (d : GDiff) : Prop where
  storage : (d.storage.map (·.1)).Nodup
  nonces : (d.nonces.map (·.1)).Nodup
  system : ∀ a, State.isSystem a = true → d.nonceOf a = none ∧ d.classOf a = none

/-- What the last of them that says something says. -/
def lastSays {β γ : Type} (f : β → Option γ) (l : List β) : Option γ := l.reverse.findSome? f

/-- What the blocks of the chain and then the pending differences say. -/
def says {γ : Type} (f : State.Update → Option γ) (g : GDiff → Option γ) (us : List State.Update) (ds : List GDiff) : Option γ :=
  (lastSays g ds).or (lastSays f us)

/-- The class of a contract after everything. -/
def classAt (us : List State.Update) (ds : List GDiff) (a : Nat) : Option Nat := says (·.classOf a) (·.classOf a) us ds

/-- The right answer about the class of a contract. -/
def rightClass (us : List State.Update) (ds : List GDiff) (a : Nat) : Ans Nat :=
  match classAt us ds a with
  | some c => .ok c
  | none => .contractNotFound

/-- The right answer about a nonce. -/
def rightNonce (us : List State.Update) (ds : List GDiff) (a : Nat) : Ans Nat :=
  match says (·.nonceOf a) (·.nonceOf a) us ds with
  | some n => .ok n
  | none => if (classAt us ds a).isSome then .ok 0 else .contractNotFound

/-- The right answer about a storage cell. -/
def rightStorage (us : List State.Update) (ds : List GDiff) (a k : Nat) : Ans Nat :=
  match says (·.storageOf a k) (·.storageOf a k) us ds with
  | some v => .ok v
  | none => if (classAt us ds a).isSome then .ok 0 else .contractNotFound

/-- The differences of the transactions of a pre-confirmed block; transactions that are not executed yet have none. -/
def txDiffs (g : GBlock) : List GDiff := g.diffs.filterMap id

/-- The differences of all pending blocks. -/
def allDiffs (g : GBlock) (pl : Option GLatest) : List GDiff := (pl.map (·.diff)).toList ++ txDiffs g

/-- The pending blocks, lowest first: number and the differences of the block. -/
def pendingBlocks (g : GBlock) (number : Nat) (pl : Option GLatest) : List (Nat × List GDiff) :=
  (pl.map fun p => (p.number, [p.diff])).toList ++ [(number, txDiffs g)]

/-- The blocks that count on a chain of that length: those above the chain, if the lowest of them comes right after it. -/
def above (len : Nat) (bs : List (Nat × List GDiff)) : List (Nat × List GDiff) :=
  let r := bs.filter fun b => decide (len ≤ b.1)
  if r.head?.map (·.1) = some len then r else []

/-- The differences that count, for the version of the interface: versions before 0.9 do not see pending blocks. -/
def pendingDiffs (v9 : Bool) (len : Nat) (g : GBlock) (number : Nat) (pl : Option GLatest) : List GDiff :=
  if v9 then (above len (pendingBlocks g number pl)).flatMap (·.2) else []

/-- The difference says something about the contract. -/
def GDiff.Mentions (d : GDiff) (a : Nat) : Prop := d.nonceOf a ≠ none ∨ d.classOf a ≠ none ∨ ∃ k, d.storageOf a k ≠ none

/-- A block of the chain says something about the contract. -/
def ChainMentions (us : List State.Update) (a : Nat) : Prop :=
  ∃ u ∈ us, u.nonceOf a ≠ none ∨ u.classOf a ≠ none ∨ ∃ k, u.storageOf a k ≠ none

/-- The rules of the network: what is deployed was not mentioned before; what is replaced has been deployed. -/
structure Lawful (us : List State.Update) (ds : List GDiff) : Prop where
  fresh : ∀ l d r, ds = l ++ d :: r → ∀ a, d.deploys a ≠ none → ¬ ChainMentions us a ∧ ∀ e ∈ l, ¬ e.Mentions a
  known : ∀ l d r, ds = l ++ d :: r → ∀ a, d.replaces a ≠ none → d.deploys a ≠ none ∨ classAt us l a ≠ none

/-- The contract is deployed by one of the pending differences and replaced by one of them. -/
def DeployedAndReplaced (ds : List GDiff) (a : Nat) : Prop := (∃ d ∈ ds, d.deploys a ≠ none) ∧ ∃ d ∈ ds, d.replaces a ≠ none

end Verif.Pend
