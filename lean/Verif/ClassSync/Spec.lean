import Verif.ClassSync.Model

/-!
What peers send and when it is right.
-/

namespace Verif.ClassSync.Spec

/-- The definitions that one peer sent for one block. -/
structure Sent (P : Type) where
  peer : P
  block : Nat
  classes : List Raw

/-- What the stream of class definitions hands on for these (C64: whole blocks, in order). -/
def itemsOf {P : Type} (l : List (Sent P)) : List (P × Raw) := l.flatMap fun s => s.classes.map fun r => (s.peer, r)

/-- A definition that parses and has the hash it is sent with. -/
def Valid (lib : Lib) (r : Raw) : Prop := lib.parses r.defn = true ∧ lib.hashOf r.defn = some r.hash

/-- An answer that is right: definitions of their hash, of each class declared in the block one. -/
def Good {P : Type} (lib : Lib) (db : Db) (s : Sent P) : Prop :=
  (∀ r ∈ s.classes, Valid lib r) ∧ ∃ l, db.declaredAt s.block = some l ∧ (s.classes.map (·.hash)).Perm l

/-- What the stream of class definitions guarantees (C64) for the `k` blocks from `start`: for each
block as many definitions as it declares classes. -/
structure Fed {P : Type} (db : Db) (start k : Nat) (sent : List (Sent P)) : Prop where
  blocks : sent.map (·.block) = List.range' start k
  own : ∀ s ∈ sent, ∀ r ∈ s.classes, r.block = s.block
  count : ∀ s ∈ sent, ∃ l, db.declaredAt s.block = some l ∧ l.length = s.classes.length

/-- Databases that storing blocks, removing the last block, and storing definitions lead to. -/
inductive DbReach : Db → Prop where
  | init : DbReach { blocks := 0, rows := [], redeclared := [], casm := fun _ => none }
  | store {db : Db} (r : DbReach db) (declared deployed : List Nat) (h : declared.Nodup) :
      DbReach (db.storeBlock declared deployed)
  | purge {db : Db} (r : DbReach db) (h : 0 < db.blocks) : DbReach db.purge
  | persist {db : Db} (r : DbReach db) (c : Compiled) : DbReach (db.persist c)

end Verif.ClassSync.Spec
