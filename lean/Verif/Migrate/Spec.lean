import Verif.Migrate.Model
import Verif.State.Spec
/-
What it means for an old database to hold a chain, independent of the tables it is turned into.
-/
namespace Verif.Migrate
open Verif.State

/-- The rows of the old database for one storage cell, nonce or contract. -/
def Old.storageRows (o : Old) (a : Addr) (k : Key) : List (Nat × Val) :=
  o.storage.filterMap fun r => if r.addr = a ∧ r.key = k then some (r.block, r.val) else none
def Old.nonceRows (o : Old) (a : Addr) : List (Nat × Nonce) :=
  o.nonces.filterMap fun r => if r.key = a then some (r.block, r.val) else none
def Old.classRows (o : Old) (a : Addr) : List (Nat × Class) :=
  o.contracts.filterMap fun r => if r.key = a then some (r.block, r.val) else none

/-- An old database that holds the blocks of a chain: every table has a row, and one only, for everything the updates of the
chain say. A class is listed with the first block that declares it; classes that no block declares may be listed too,
without a block (left behind by a reorg), and then have a compiled class hash or not. -/
structure Holds (o : Old) (chain : List (Hash × Update)) : Prop where
  headers : ∀ n h, (n, h) ∈ o.headers ↔ ∃ u, chain[n]? = some (h, u)
  headersOnce : o.headers.Nodup
  hashes : (chain.map (·.1)).Nodup
  storage : ∀ n a k v, ⟨n, a, k, v⟩ ∈ o.storage ↔ ∃ h u, chain[n]? = some (h, u) ∧ u.storageOf a k = some v
  storageOnce : o.storage.Nodup
  nonces : ∀ n a v, ⟨n, a, v⟩ ∈ o.nonces ↔ ∃ h u, chain[n]? = some (h, u) ∧ u.nonceOf a = some v
  noncesOnce : o.nonces.Nodup
  contracts : ∀ n a c, ⟨n, a, c⟩ ∈ o.contracts ↔ ∃ h u, chain[n]? = some (h, u) ∧ u.classOf a = some c
  contractsOnce : o.contracts.Nodup
  classesOnce : (o.classDefs.map (·.1)).Nodup
  classes : ∀ c n, (c, some n) ∈ o.classDefs ↔ (chain.map (·.2)).findIdx? (fun u => u.declares c) = some n
  casm : ∀ c x n, (c, some n) ∈ o.classDefs → ((c, x) ∈ o.casmDefs ↔ ∃ p ∈ chain, p.2.sierra.lookup c = some x)
  casmOnce : (o.casmDefs.map (·.1)).Nodup

/-- The first block that declares a class, if it is not after the block asked for. -/
def declaredBy (tr : Track) (id : BlockId) (c : Class) : Option Nat :=
  (tr.resolve id).bind fun n => (tr.declaredAt c).filter fun b => decide (b ≤ n)

/-- The chain has none of the two classes that revision 73 singles out. -/
def NoneKnown (chain : List (Hash × Update)) : Prop := ∀ p ∈ chain, ∀ c ∈ knownClasses, p.2.declares c = false

/-- After a chain, no reorg of the operations removes a block that declares or migrates a Sierra class. -/
def CleanFrom (tr : Track) (ops : List Op) : Prop :=
  ∀ pre tail post, ops = pre ++ .reorg tail :: post →
    ∀ u ∈ (pre.foldl Track.step tr).updates.drop tail, u.sierra = [] ∧ u.migrated = []

/-- The headers of a chain of gateway blocks: every block names the hash of the block before it, the first one zero. -/
def Linked (bs : List Reply) : Prop :=
  ∀ (n : Nat) (b : Reply), bs[n]? = some b → b.parent = match n with | 0 => 0 | m + 1 => ((bs[m]?).map (·.hash)).getD 0

/-- The number and the hash of every block: all that an old database needs to have of the headers here. -/
def numbered (bs : List Reply) : List (Nat × Hash) := bs.mapIdx fun n b => (n, b.hash)

/-- The headers of a node that synced the same blocks from scratch. -/
def synced (bs : List Reply) : List Header := bs.mapIdx storeHeader

end Verif.Migrate
