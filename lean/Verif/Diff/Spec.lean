import Verif.Diff.Model
/-!
# The changes of a state update

What a state update changes, as a set of single changes.
-/
namespace Verif.Diff

/-- One change. -/
inductive Change
  | storage (a k v : Nat)
  | nonce (a n : Nat)
  | cls (a h : Nat)
  | cairo (h : Nat)
  | sierra (s c : Nat)
  | migrated (s c : Nat)
  deriving DecidableEq

/-- The update contains the change. Deployment and replacement are not told apart, and neither are storage changes of contracts and of
system contracts. -/
def SU.Has (u : SU) : Change → Prop
  | .storage a k v => (∃ c, (a, c) ∈ u.contracts ∧ (k, v) ∈ c.storage) ∨ ∃ s, (a, s) ∈ u.system ∧ (k, v) ∈ s
  | .nonce a n => ∃ c, (a, c) ∈ u.contracts ∧ c.nonce = some n
  | .cls a h => ∃ c x, (a, c) ∈ u.contracts ∧ c.cls = some x ∧ x.hash = h
  | .cairo h => h ∈ u.cairo
  | .sierra s c => (s, c) ∈ u.sierra
  | .migrated s c => (s, c) ∈ u.migrated

/-- Maps have distinct keys, sets distinct elements; a system contract has no entry among the contracts. -/
structure SU.Ok (u : SU) : Prop where
  contracts : (u.contracts.map (·.1)).Nodup
  system : (u.system.map (·.1)).Nodup
  separate : ∀ p ∈ u.contracts, ∀ q ∈ u.system, p.1 ≠ q.1
  storage : ∀ p ∈ u.contracts, (p.2.storage.map (·.1)).Nodup
  sysStorage : ∀ p ∈ u.system, (p.2.map (·.1)).Nodup
  cairo : u.cairo.Nodup
  sierra : (u.sierra.map (·.1)).Nodup
  migrated : (u.migrated.map (·.1)).Nodup

/-- The commitment of the network hashes declarations and migrations as one set: they differ only in the earlier state. -/
def SU.SameChanges (u u' : SU) : Prop :=
  (∀ a k v, u.Has (.storage a k v) ↔ u'.Has (.storage a k v)) ∧
  (∀ a n, u.Has (.nonce a n) ↔ u'.Has (.nonce a n)) ∧
  (∀ a h, u.Has (.cls a h) ↔ u'.Has (.cls a h)) ∧
  (∀ h, u.Has (.cairo h) ↔ u'.Has (.cairo h)) ∧
  (∀ s c, (u.Has (.sierra s c) ∨ u.Has (.migrated s c)) ↔ (u'.Has (.sierra s c) ∨ u'.Has (.migrated s c)))

end Verif.Diff
