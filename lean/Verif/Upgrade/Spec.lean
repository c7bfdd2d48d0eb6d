import Verif.Upgrade.Model
import Verif.Events.Props
/-
Specification of upgrades: which database a chain has in the old and in the new layout, and what it means that the index
works. The chain, the history after the upgrade (`Track`) and the answer to a query are those of Verif/Events/Spec.lean.
-/
namespace Verif.Upgrade
open Verif.Events

/-- The rows of `block_headers` of an unpruned chain. -/
def headersOf (chain : List Body) : List (Nat × Nat) := chain.zipIdx.map fun bn => (bn.2, bn.1.hash)

/-- The rows of `transactions` of an unpruned chain: a block without transactions has none. -/
def txsOf (chain : List Body) : List (Nat × List (Nat × List Event)) :=
  (chain.zipIdx.filter fun bn => !bn.1.txs.isEmpty).map fun bn => (bn.2, bn.1.txs)

/-- A database of before revision 66 that holds this chain: a block with events has a row with its Bloom filter, a block
without events may have no row. -/
structure OldOf (c : Cfg) (old : Old) (chain : List Body) : Prop where
  hashes : (chain.map (·.hash)).Nodup
  headers : old.headers = headersOf chain
  txs : old.txs = txsOf chain
  blooms : ∀ (n : Nat) (b : Body), chain[n]? = some b →
    old.blooms.lookup n = some (blockBloom c b.events) ∨ (old.blooms.lookup n = none ∧ b.events = [])

/-- A filter knows the events of this chain: for every block of its range it has the bits of every event of the block. -/
def Knows (c : Cfg) (f : Agg) (chain : List Body) : Prop :=
  ∀ (n : Nat) (b : Body) (e : Event), f.fromBlock ≤ n → n ≤ f.toBlock → chain[n]? = some b → e ∈ b.events →
    ∀ x, (x = e.addr ∨ ∃ i k, i < 16 ∧ e.keys[i]? = some k ∧ x = tagKey i k) →
      ∀ r ∈ indicesForKey c x, aggBit c f r (n - f.fromBlock) = true

/-- An unpruned database of this chain with one stored filter for each complete range, in which the filters from block
`first` on may say anything, and so may the saved running filter. -/
structure Damaged (c : Cfg) (first : Nat) (db : Db) (chain : List Body) : Prop where
  headers : db.headers = headersOf chain
  txs : db.txs = txsOf chain
  shape : ∀ f ∈ db.filters, f.bitmap.length = c.rangeBytes * c.bits ∧ f.fromBlock % c.len = 0 ∧
    f.toBlock = f.fromBlock + c.len - 1 ∧ f.toBlock < chain.length
  all : ∀ k, k * c.len + c.len ≤ chain.length → ∃ f ∈ db.filters, f.fromBlock = k * c.len
  one : (db.filters.map (·.fromBlock)).Nodup
  good : ∀ f ∈ db.filters, f.fromBlock < first → Knows c f chain

/-- The history of a database that was upgraded while it held this chain. -/
def upgraded (chain : List Body) : Track :=
  { chain, lo := 0, next := chain.length, saved := chain.length, stale := false }

/-- In the operations after the upgrade, no crash is followed by a start that finds a saved index of an abandoned fork
which ends at the head (see C27). -/
def SafeFrom (t : Track) (ops : List Op) : Prop :=
  ∀ pre post, ops = pre ++ .crash :: post →
    ¬ ((pre.foldl Track.step t).stale = true ∧ (pre.foldl Track.step t).saved = (pre.foldl Track.step t).chain.length)

/-- The index works for this history: every stored block of the range of a query that has a wanted event is reported, and,
as long as nothing is pruned, following the pages of a query gives its answer. -/
structure Works (c : Cfg) (s : Sys) (t : Track) : Prop where
  reports : ∀ (start stop n : Nat) (b : Body) (addrs : List Felt) (keys : List (List Felt)) (e : Event),
    t.lo ≤ start → start ≤ n → n ≤ stop → stop < t.chain.length → t.chain[n]? = some b → keys.length ≤ 16 →
    e ∈ b.events → wanted addrs keys e = true → n ∈ reported c s start stop addrs keys
  answers : t.lo = 0 → ∀ (limit : Nat) (q : Constraints) (k : Nat) (evs : List Emitted), 1 ≤ limit → 1 ≤ q.pageSize →
    q.keys.length ≤ 16 → Paged c limit q none (List.replicate k s) evs →
    evs = answer t.chain q.addrs q.keys (q.fromBlock.getD 0) (lastOf t.chain q.toBlock)
  page : t.lo = 0 → ∀ (limit : Nat) (q : Constraints), 1 ≤ limit → 1 ≤ q.pageSize → q.keys.length ≤ 16 →
    ∃ p, pageAt c limit q s none = .ok p

/-- The index works after the upgrade and after whatever happens to the database from then on. -/
def WorksFrom (c : Cfg) (db : Db) (chain : List Body) : Prop :=
  ∃ s, openStorage c db = some s ∧ ∀ ops, SafeFrom (upgraded chain) ops →
    ∃ s', ops.foldlM (step c) s = some s' ∧ Works c s' (ops.foldl Track.step (upgraded chain))

end Verif.Upgrade
