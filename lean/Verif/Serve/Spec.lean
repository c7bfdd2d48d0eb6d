import Verif.Serve.Model
/-!
# What a peer should get

Said without the code: which blocks an answer holds, and what of the stored data arrives.
-/
namespace Verif.Serve

open Verif.Sync Verif.Block

/-- The number of the `i`-th block of an iteration. -/
def position (start step : Nat) (forward : Bool) (i : Nat) : Int := if forward then start + i * step else start - i * step

/-- The blocks of an answer: those at the positions asked for, at most a hundred, up to the first that does not exist. -/
def servedBlocks (has : Nat → Bool) (start step limit : Nat) (forward : Bool) : List Nat :=
  (((List.range (min limit 100)).map (position start step forward)).takeWhile fun n =>
    decide (0 ≤ n) && decide (n < 2 ^ 63) && has n.toNat).map Int.toNat

/-- What arrives of a transaction: the address of a deployed contract is left to the receiver; the nonce of a declare transaction of
version 0 and the entry point type of an invoke transaction of version 0 are lost. -/
def arrives : Txn → Txn
  | .declareV0 t => .declareV0 { t with nonce := 0 }
  | .deployV0 t => .deployV0 { t with address := 0 }
  | .deployV1 t => .deployV1 { t with address := 0 }
  | .deployAccountV1 t => .deployAccountV1 { t with address := 0 }
  | .deployAccountV3 t => .deployAccountV3 { t with address := 0 }
  | .invokeV0 t => .invokeV0 { t with entryType := none }
  | t => t

/-- Nothing of the transaction is lost for good. -/
def Lossless (h : Hashes) : Txn → Prop
  | .declareV0 t => t.nonce = 0
  | .deployV0 t | .deployV1 t => t.address = deployedAddress h t.calldata t.salt t.classHash
  | .deployAccountV1 t => t.address = deployedAddress h t.calldata t.salt t.classHash
  | .deployAccountV3 t => t.address = deployedAddress h t.calldata t.salt t.classHash
  | .invokeV0 t => t.entryType = none
  | _ => True

/-- The types of the amounts: `u64` and `u128`. -/
def Bound.InRange (b : Bound) : Prop := b.amount < 2 ^ 64 ∧ b.price < 2 ^ 128

def V3.InRange (v : V3) : Prop := Bound.InRange v.l1Gas ∧ Bound.InRange v.l2Gas ∧ ∀ b, v.l1DataGas = some b → Bound.InRange b

def Txn.InRange : Txn → Prop
  | .declareV3 t => V3.InRange t.v3
  | .deployAccountV3 t => V3.InRange t.v3
  | .invokeV3 t => V3.InRange t.v3
  | _ => True

/-- Gas amounts are `u128`. -/
def Rcpt.InRange (r : Rcpt) : Prop := r.daL1Gas < 2 ^ 128 ∧ r.daL1DataGas < 2 ^ 128 ∧ r.totalL1Gas < 2 ^ 128 ∧ r.l2Gas < 2 ^ 128

/-- What arrives of a receipt that is the `i`-th of its block: the count of `segment_arena`, the data gas of the total and the upper bytes of
the addresses of messages are lost. -/
def Rcpt.arrives (r : Rcpt) (i : Nat) : Rcpt :=
  { r with
    segmentArena := 0, totalL1DataGas := 0, index := i,
    messages := r.messages.map fun m => { m with dst := felt (m.dst.val % 2 ^ 160) } }

/-- A stored transaction with its receipt that can be sent. -/
structure Entry.Sendable (e : Entry) : Prop where
  txn : Txn.InRange e.txn
  rcpt : e.rcpt.InRange
  counters : ∀ x ∈ e.rcpt.counters, x < 2 ^ 32

/-- The transactions of a block as they arrive. -/
def arrivedTxs (es : List Entry) : List (F × Txn × Rcpt) := es.zipIdx.map fun p => (p.1.hash, arrives p.1.txn, p.1.rcpt.arrives p.2)

/-- The events of a block as they arrive: the transactions that have events, in order. -/
def arrivedEvents (es : List Entry) : List (F × List Event) :=
  (es.filter fun e => !e.events.isEmpty).map fun e => (e.hash, e.events)

/-- A state update without entries that change nothing; the addresses 1 and 2 are those of system contracts. -/
structure Tidy (u : State.Update) : Prop where
  contracts : ∀ p ∈ u.contracts, State.isSystem p.1 = false ∧ (p.2.storage ≠ [] ∨ p.2.nonce ≠ none ∨ p.2.cls ≠ none)
  system : ∀ p ∈ u.system, State.isSystem p.1 = true ∧ p.2 ≠ []

/-- What a received state diff says is what the update says, but for the migrated classes and whether a class is new or replaces another. -/
structure Carries (a : DiffAcc) (u : State.Update) : Prop where
  storage : ∀ x k v, ((x, k), v) ∈ a.storage ↔
    (∃ c, (x, c) ∈ u.contracts ∧ (k, v) ∈ c.storage) ∨ ∃ s, (x, s) ∈ u.system ∧ (k, v) ∈ s
  nonces : ∀ x n, (x, n) ∈ a.nonces ↔ ∃ c, (x, c) ∈ u.contracts ∧ c.nonce = some n
  classes : ∀ x h, (x, h) ∈ a.deployed ↔ ∃ c k, (x, c) ∈ u.contracts ∧ c.cls = some k ∧ k.hash = h
  sierra : ∀ p, p ∈ a.sierra ↔ p ∈ u.sierra
  cairo : ∀ h, h ∈ a.cairo ↔ h ∈ u.cairo

end Verif.Serve
