import Verif.Events.Rpc
/-
Specification of starknet_getEvents with pending blocks, and of sessions that follow the tokens.
-/
namespace Verif.Events

/-- What a block contains that concerns events: for each transaction its hash, its index and its events. A block number is
looked up among the stored blocks, then among the pending ones. -/
def content (chain : List Body) (p : Pending) (n : Nat) : List (Nat × Nat × List Event) :=
  match chain[n]? with
  | some b => b.txs.zipIdx.map fun ti => (ti.1.1, ti.2, ti.1.2)
  | none =>
    if some n = p.preLatest.map (·.number) then ((p.preLatest.map (·.receipts)).getD [])
    else if n = p.preConfirmed.number then p.preConfirmed.receipts
    else []

/-- The wanted events of block `n`, in order. Pending blocks have no hash. -/
def wantedAt (chain : List Body) (p : Pending) (addrs : List Felt) (keys : List (List Felt)) (n : Nat) : List REvent :=
  ((content chain p n).flatMap fun t => t.2.2.zipIdx.map fun ei =>
    (⟨ei.1, chain[n]?.map (·.hash), n, t.1, t.2.1, ei.2⟩ : REvent)).filter fun e => wanted addrs keys e.event

/-- The answer: the wanted events of the blocks `first`, ..., `last`. -/
def answerAt (chain : List Body) (p : Pending) (addrs : List Felt) (keys : List (List Felt)) (first last : Nat) : List REvent :=
  (List.range' first (last + 1 - first)).flatMap (wantedAt chain p addrs keys)

/-- The first block of the requested range. "Pre-confirmed" stands for everything that is not stored yet. -/
def rangeFirst (chain : List Body) : Option BlockId → Option Nat
  | none => some 0
  | some (.number n) => some n
  | some (.stored n) => n
  | some .latest => some (chain.length - 1)
  | some .preConfirmed => some chain.length

/-- The last block of the requested range. -/
def rangeLast (chain : List Body) (p : Pending) : Option BlockId → Option Nat
  | none => some p.preConfirmed.number
  | some (.number n) => some n
  | some (.stored n) => n
  | some .latest => some (chain.length - 1)
  | some .preConfirmed => some p.preConfirmed.number

/-- The pending blocks follow the stored ones. -/
def Follows (chain : List Body) (p : Pending) : Prop :=
  chain ≠ [] ∧ match p.preLatest with
    | some b => b.number = chain.length ∧ p.preConfirmed.number = chain.length + 1
    | none => p.preConfirmed.number = chain.length

/-- Requests for which the range is respected: it does not end above the pre-confirmed block, does not start above it
without an end, and does not separate the pre-latest from the pre-confirmed block. Ids that are looked up are stored. See
the `C26_..._violated` theorems for the others. -/
structure PlainRange (chain : List Body) (p : Pending) (r : Request) : Prop where
  to_le : ∀ n, r.toBlock = some (.number n) → n ≤ p.preConfirmed.number
  from_le : r.toBlock = none → ∀ n, r.fromBlock = some (.number n) → n ≤ p.preConfirmed.number
  to_pre : ∀ b, p.preLatest = some b → r.toBlock ≠ some (.number b.number)
  from_pre : p.preLatest ≠ none → r.fromBlock ≠ some (.number p.preConfirmed.number)
  to_stored : ∀ n, r.toBlock = some (.stored n) → ∃ k, n = some k ∧ k < chain.length
  from_stored : ∀ n, r.fromBlock = some (.stored n) → ∃ k, n = some k ∧ k < chain.length

/-- A moment of the node: the history of its storage, its state, and the pending data. -/
structure Moment where
  ops : List Op
  sys : Sys
  pending : Pending

def Moment.chain (w : Moment) : List Body := (Track.run w.ops).chain

/-- The node moves on: blocks are stored, pending blocks become stored ones, transactions are added to the last block.
Nothing that was visible changes. -/
def Moment.Extends (w w' : Moment) : Prop :=
  w.chain.length ≤ w'.chain.length ∧ w.pending.preConfirmed.number ≤ w'.pending.preConfirmed.number ∧
  (∀ n, n < w.pending.preConfirmed.number → content w'.chain w'.pending n = content w.chain w.pending n) ∧
  content w.chain w.pending w.pending.preConfirmed.number <+: content w'.chain w'.pending w.pending.preConfirmed.number

/-- A session: pages in successive moments, until there is no token. -/
inductive Session (c : Cfg) (limit : Nat) (r : Request) : Option Token → List Moment → List REvent → Prop
  | last {tok : Option Token} {w : Moment} {evs : List REvent}
      (h : getEvents c w.sys limit w.pending r tok = .ok (evs, none)) : Session c limit r tok [w] evs
  | more {tok : Option Token} {w : Moment} {evs rest : List REvent} {t : Token} {ws : List Moment}
      (h : getEvents c w.sys limit w.pending r tok = .ok (evs, some t)) (hr : Session c limit r (some t) ws rest) :
      Session c limit r tok (w :: ws) (evs ++ rest)

/-- The event without the block hash, which a pending block does not have yet. -/
def REvent.noHash (e : REvent) : REvent := { e with blockHash := none }

end Verif.Events
