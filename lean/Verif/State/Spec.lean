import Verif.State.Model
/-
Specification of the versioned state, independent of the tables: a chain is the list of the state updates of
its blocks, and the value of anything at block `n` is what the last update at or before `n` that mentions it
says.
-/
namespace Verif.State

/-- What the last of the updates `0 .. n` that says something says. -/
def asOf {β γ : Type} (f : β → Option γ) (us : List β) (n : Nat) : Option γ :=
  (us.take (n + 1)).reverse.findSome? f

/-- The value the update writes to a storage cell, if any. -/
def Update.storageOf (u : Update) (a : Addr) (k : Key) : Option Val :=
  match u.contracts.lookup a with
  | some c => c.storage.lookup k
  | none => (u.system.lookup a).bind (·.lookup k)

/-- The nonce the update sets for a contract, if any. -/
def Update.nonceOf (u : Update) (a : Addr) : Option Nonce := (u.contracts.lookup a).bind (·.nonce)

/-- The class change of a contract, if any. -/
def Update.classUpdOf (u : Update) (a : Addr) : Option ClassUpd := (u.contracts.lookup a).bind (·.cls)

/-- The class the update gives to a contract, if any. -/
def Update.classOf (u : Update) (a : Addr) : Option Class := (u.classUpdOf a).map (·.hash)

/-- The CASM hash the update gives to a Sierra class, if any: by declaring it or by migrating it. -/
def Update.casmOf (u : Update) (h : Class) : Option Casm := (u.sierra.lookup h).or (u.migrated.lookup h)

/-- The update declares the class (explicitly, or implicitly by deploying an instance of it). -/
def Update.declares (u : Update) (h : Class) : Bool :=
  u.cairo.contains h || u.sierra.any (fun p => p.1 == h) ||
    u.contracts.any fun p => p.2.cls == some (.deploy h)

/-- An update is built from hash maps and hash sets: keys are distinct, and system contracts are kept apart
from ordinary ones. -/
structure Update.WF (u : Update) : Prop where
  contracts : (u.contracts.map (·.1)).Nodup
  storage : ∀ p ∈ u.contracts, (p.2.storage.map (·.1)).Nodup
  system : (u.system.map (·.1)).Nodup
  systemStorage : ∀ p ∈ u.system, (p.2.map (·.1)).Nodup
  notSystem : ∀ p ∈ u.contracts, isSystem p.1 = false
  isSystem : ∀ p ∈ u.system, isSystem p.1 = true
  cairo : u.cairo.Nodup
  sierra : (u.sierra.map (·.1)).Nodup
  migrated : (u.migrated.map (·.1)).Nodup

/-- The surviving chain, and the lowest block whose history has not been pruned. -/
structure Track where
  chain : List (Hash × Update) := []
  lo : Nat := 0

/-- The state updates of the surviving chain. -/
def Track.updates (tr : Track) : List Update := tr.chain.map (·.2)

/-- What each transaction means for the chain: a block extends it, unless a retained block has the same hash; a
reorg cuts it at the tail, if the tail and its parent are retained; pruning moves the lowest retained block. -/
def Track.step (tr : Track) : Op → Track
  | .define _ => tr
  | .block h u => if (tr.chain.drop tr.lo).any fun p => p.1 == h then tr else { tr with chain := tr.chain ++ [(h, u)] }
  | .reorg tail =>
    if tail < tr.chain.length ∧ (tr.lo < tail ∨ (tail = 0 ∧ tr.lo = 0)) then { tr with chain := tr.chain.take tail }
    else tr
  | .prune point numKept =>
    if point < tr.chain.length ∧ numKept ≤ point then { tr with lo := max tr.lo (point - numKept) } else tr

def Track.run (ops : List Op) : Track := ops.foldl Track.step {}

/-- Every state update inserted is well formed. -/
def OpsOk (ops : List Op) : Prop := ∀ h u, Op.block h u ∈ ops → u.WF

/-- The block number a block id stands for; `latest` stands for any number past the end. -/
def Track.resolve (tr : Track) : BlockId → Option Nat
  | .latest => some tr.chain.length
  | .number n => some n
  | .hash h => ((tr.chain.drop tr.lo).findIdx? fun p => p.1 == h).map (· + tr.lo)

/-- The value at a block id. -/
def Track.at {γ : Type} (tr : Track) (f : Update → Option γ) (id : BlockId) : Option γ :=
  (tr.resolve id).bind (asOf f tr.updates)

/-- The history at the block has not been pruned. -/
def Track.Retained (tr : Track) : BlockId → Prop
  | .number n => tr.lo ≤ n
  | _ => True

/-- The first block that declares a class. -/
def Track.declaredAt (tr : Track) (h : Class) : Option Nat := tr.updates.findIdx? fun u => u.declares h

/-- The state of a contract after block `n`: class, nonce and storage, with the protocol's zero defaults. -/
def stateAt (us : List Update) (n : Nat) (a : Addr) : CState where
  cls := asOf (·.classOf a) us n
  nonce := (asOf (·.nonceOf a) us n).getD 0
  storage := fun k => (asOf (·.storageOf a k) us n).getD 0

/-- The protocol rule that an ordinary contract has a class before (or when) anything of it is written. -/
def DeployedFirst (us : List Update) : Prop :=
  ∀ i a, isSystem a = false →
    (us[i]?.bind (·.nonceOf a) ≠ none ∨ ∃ k, us[i]?.bind (·.storageOf a k) ≠ none) → asOf (·.classOf a) us i ≠ none

/-- The value an update gives to a storage cell of an ordinary contract, resp. of a system contract. -/
def Update.contractStorage (u : Update) (a : Addr) (k : Key) : Option Val := (u.contracts.lookup a).bind (·.storage.lookup k)
def Update.systemStorage (u : Update) (a : Addr) (k : Key) : Option Val := (u.system.lookup a).bind (·.lookup k)

/-- Two updates lead to the same state: they agree as maps and sets, up to whether a new class of a contract is a
deployment or a replacement. (The order of entries, and contracts with nothing to update, do not count.) -/
structure Update.SameValues (u w : Update) : Prop where
  classHash : ∀ a, u.classOf a = w.classOf a
  nonce : ∀ a, u.nonceOf a = w.nonceOf a
  storage : ∀ a k, u.contractStorage a k = w.contractStorage a k
  system : ∀ a k, u.systemStorage a k = w.systemStorage a k
  cairo : ∀ h, h ∈ u.cairo ↔ h ∈ w.cairo
  sierra : ∀ h, u.sierra.lookup h = w.sierra.lookup h
  migrated : ∀ h, u.migrated.lookup h = w.migrated.lookup h

/-- Two updates say the same. -/
structure Update.Same (u w : Update) : Prop extends Update.SameValues u w where
  cls : ∀ a, u.classUpdOf a = w.classUpdOf a

/-- The update declares the class explicitly. -/
def Update.names (u : Update) (h : Class) : Prop := h ∈ u.sierra.map (·.1) ∨ h ∈ u.cairo

/-- The protocol rules a chain of updates obeys: a contract is deployed once, and replaced only after that; a deployed
class is declared by then; a Sierra class is declared once, and not also as a Cairo class; only a Sierra class that
was declared before is migrated. -/
structure ChainOk (us : List Update) : Prop where
  deployOnce : ∀ (n : Nat) (u : Update) (a : Addr) (c : Class), us[n]? = some u → u.classUpdOf a = some (.deploy c) →
    ∀ (j : Nat) (w : Update), j < n → us[j]? = some w → w.classOf a = none
  replaceLater : ∀ (n : Nat) (u : Update) (a : Addr) (c : Class), us[n]? = some u → u.classUpdOf a = some (.replace c) →
    ∃ (j : Nat) (w : Update), j < n ∧ us[j]? = some w ∧ w.classOf a ≠ none
  deployDeclared : ∀ (n : Nat) (u : Update) (a : Addr) (c : Class), us[n]? = some u → u.classUpdOf a = some (.deploy c) →
    ∃ (j : Nat) (w : Update), j ≤ n ∧ us[j]? = some w ∧ w.names c
  sierraOnce : ∀ (n : Nat) (u : Update) (h : Class), us[n]? = some u → h ∈ u.sierra.map (·.1) →
    h ∉ u.cairo ∧ ∀ (j : Nat) (w : Update), j < n → us[j]? = some w → ¬ w.names h
  migrateDeclared : ∀ (n : Nat) (u : Update) (h : Class), us[n]? = some u → h ∈ u.migrated.map (·.1) →
    ∃ (j : Nat) (w : Update), j < n ∧ us[j]? = some w ∧ h ∈ w.sierra.map (·.1)

end Verif.State
