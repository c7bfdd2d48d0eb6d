import Verif.Exec.Model

/-!
What executing on top of a block has to read, said about the blocks alone. Nothing here uses the
functions of the model.
-/

namespace Verif.Exec.Spec

/-- `v` is what the last block that says something says, and `0` if none does. -/
def Last (chain : List Blk) (says : Blk → Nat → Prop) (v : Nat) : Prop :=
  (∃ pre b post, chain = pre ++ b :: post ∧ says b v ∧ ∀ b' ∈ post, ∀ w, ¬ says b' w) ∨
  (v = 0 ∧ ∀ b ∈ chain, ∀ w, ¬ says b w)

/-- The block sets a slot of a contract or system contract. -/
def SetsSlot (a k : Nat) (b : Blk) (v : Nat) : Prop :=
  (∃ u, (a, u) ∈ b.contracts ∧ (k, v) ∈ u.storage) ∨ (∃ s, (a, s) ∈ b.system ∧ (k, v) ∈ s)

/-- The block sets the nonce of a contract. -/
def SetsNonce (a : Nat) (b : Blk) (v : Nat) : Prop :=
  ∃ u, (a, u) ∈ b.contracts ∧ u.nonce = some v

/-- The block deploys a contract or replaces its class. -/
def SetsClass (a : Nat) (b : Blk) (v : Nat) : Prop :=
  ∃ u, (a, u) ∈ b.contracts ∧ (u.cls = some (.deploy v) ∨ u.cls = some (.replace v))

/-- The block declares a Sierra class with a compiled class hash, or migrates the class to it. -/
def SetsCompiled (h : Nat) (b : Blk) (v : Nat) : Prop :=
  (h, v) ∈ b.declared ∨ ((h, v) ∈ b.migrated ∧ ∀ w, (h, w) ∉ b.declared)

/-- The block makes a class known: a declaration, or a deployment of an undeclared one. -/
def Declares (b : Blk) (h : Nat) : Prop :=
  h ∈ b.cairo ∨ (∃ c, (h, c) ∈ b.declared) ∨ ∃ p ∈ b.contracts, p.2.cls = some (.deploy h)

/-- Maps have one entry per key, and system contracts are not ordinary ones. -/
structure Wf (b : Blk) : Prop where
  contracts : (b.contracts.map (·.1)).Nodup
  slots : ∀ p ∈ b.contracts, (p.2.storage.map (·.1)).Nodup
  system : (b.system.map (·.1)).Nodup
  systemSlots : ∀ p ∈ b.system, (p.2.map (·.1)).Nodup
  apart : ∀ a, (∃ u, (a, u) ∈ b.contracts) → ¬ ∃ s, (a, s) ∈ b.system
  declared : (b.declared.map (·.1)).Nodup
  migrated : (b.migrated.map (·.1)).Nodup

/-- The database and the decided blocks together hold blocks `0` to `n` of `chain`: the database
the first ones, the decided blocks the others, and there is no gap among the decided blocks up to
`n`. -/
structure OnTop (chain : List Blk) (n : Nat) (db : Db) (d : Decided) : Prop where
  reach : n < chain.length
  stored : db.blocks = chain.take db.blocks.length
  ascending : d.Pairwise (fun p q => p.1 < q.1)
  agree : ∀ p ∈ d, chain[p.1]? = some p.2
  cover : ∀ m, m ≤ n → (m < db.blocks.length ∨ ∃ b, (m, b) ∈ d)
  noGap : ∀ p ∈ d, ∀ m, p.1 < m → m ≤ n → ∃ b, (m, b) ∈ d

end Verif.Exec.Spec
