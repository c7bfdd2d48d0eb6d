import Verif.Agree.Model

/-!
# What the methods should say about a block (C108)

The history of successful writes determines a list of blocks.  Each block has a header and, if it
was given, a body: its transactions with their receipts, and their events once these are known.
-/

namespace Verif.Agree

/-- A block of the history. -/
structure Blk where
  hdr : Hdr
  body : Option (List (Tx × Nat) × Option (List (List Nat)))
deriving DecidableEq, Repr

/-- The block's transactions with their receipts. -/
def Blk.txs (b : Blk) : List (Tx × Nat) := (b.body.map Prod.fst).getD []

/-- The block's events, one list for each transaction. -/
def Blk.events (b : Blk) : List (List Nat) := ((b.body.bind Prod.snd)).getD []

/-- The events of every transaction are known. -/
def Blk.Complete (b : Blk) : Prop := b.events.length = b.txs.length

/-- The effect of a write on the list of blocks. -/
def write (bs : List Blk) : Op → List Blk
  | .header h => bs ++ [⟨h, none⟩]
  | .body n data events =>
    if data = [] ∧ (events = none ∨ events = some []) then bs
    else bs.map fun b => if b.hdr.num = n then { b with body := some (data, events) } else b
  | .events n evs =>
    bs.map fun b =>
      if b.hdr.num = n then { b with body := b.body.map fun p => (p.1, some evs) } else b
  | .remove n => bs.filter fun b => b.hdr.num ≠ n
  | .pointer _ => bs

/-- The blocks after a history. -/
def blocks (ops : List Op) : List Blk := ops.foldl write []

/-- The newest block known to be accepted on L1: the last value written. -/
def accepted (ops : List Op) : Option Nat :=
  ops.foldl (fun p op => match op with | .pointer q => q | _ => p) none

/-- The block `b` is the one which a caller means by an identifier. -/
def Names (ops : List Op) (b : Blk) : RpcId → Prop
  | .number n => b ∈ blocks ops ∧ b.hdr.num = n
  | .hash h => b ∈ blocks ops ∧ b.hdr.hash = h
  | .latest => b ∈ blocks ops ∧ ∀ b' ∈ blocks ops, b'.hdr.num ≤ b.hdr.num
  | .l1Accepted => b ∈ blocks ops ∧ accepted ops = some b.hdr.num

/-- The block is at or below the newest block accepted on L1. -/
def OnL1 (ops : List Op) (b : Blk) : Prop := ∃ p, accepted ops = some p ∧ b.hdr.num ≤ p

/-- The block with the number before that of `b` is stored, or `b` is the first block. -/
def ParentStored (ops : List Op) (b : Blk) : Prop :=
  b.hdr.num = 0 ∨ ∃ b' ∈ blocks ops, b'.hdr.num + 1 = b.hdr.num

end Verif.Agree
