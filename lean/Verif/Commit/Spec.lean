import Verif.Commit.Model
import Verif.Trie.SpecStore
/-!
# What the state commitment should be

The state of the network as functions, the effect of an update on it, and its commitment by the Starknet documentation: the storage
commitment is the root of the trie of contract state hashes, the class commitment the root of the trie of class leaf hashes.
-/
namespace Verif.Commit
open Verif.Trie

/-- The state. `present`: the contract has an entry in the storage trie. -/
structure St (F : Type) where
  storage : Key → Content F
  cls : Key → Option F
  nonce : Key → Option F
  present : Key → Bool
  casm : Key → Option F

/-- The empty state. -/
def St.empty {F} : St F := ⟨fun _ => Content.empty, fun _ => none, fun _ => none, fun _ => false, fun _ => none⟩

/-- A contract is updated. -/
def St.contract {F} [DecidableEq F] (o : Ops F) (S : St F) (p : Key × ContractUpd F) : St F :=
  { S with
    storage := fun a => if a = p.1 then (S.storage a).writes o.ped p.2.storage else S.storage a
    cls := fun a => if a = p.1 then p.2.cls.or (S.cls a) else S.cls a
    nonce := fun a => if a = p.1 then p.2.nonce.or (S.nonce a) else S.nonce a
    present := fun a => a = p.1 || S.present a }

/-- A class is declared or migrated. -/
def St.declare {F} (S : St F) (p : Key × F) : St F :=
  { S with casm := fun c => if c = p.1 then some p.2 else S.casm c }

/-- All changes of an update. -/
def St.apply {F} [DecidableEq F] (o : Ops F) (S : St F) (u : Update F) : St F :=
  (u.sierra ++ u.migrated).foldl St.declare
    (u.system.foldl (fun S p => S.contract o (p.1, { storage := p.2 })) (u.contracts.foldl (St.contract o) S))

/-- The state hash of a contract. System contracts have no class. -/
def St.hash {F} (o : Ops F) (H : Nat) (isSys : Key → Bool) (S : St F) (a : Key) : F :=
  o.ped.hash (o.ped.hash (o.ped.hash (if isSys a then o.ped.zero else (S.cls a).getD o.ped.zero) (specRoot o.ped H (S.storage a)))
    ((S.nonce a).getD o.ped.zero)) o.ped.zero

/-- A leaf with value zero is no leaf. -/
def nonzero {F} [DecidableEq F] (o : FeltOps F) (x : F) : Option F := if x = o.zero then none else some x

/-- The leaves of the storage trie. -/
def St.leaves {F} [DecidableEq F] (o : Ops F) (H : Nat) (isSys : Key → Bool) (S : St F) : Content F :=
  fun a => if S.present a then nonzero o.ped (S.hash o H isSys a) else none

/-- The leaves of the class trie. -/
def St.classLeaves {F} [DecidableEq F] (o : Ops F) (S : St F) : Content F :=
  fun c => (S.casm c).bind fun x => nonzero o.pos (o.classLeaf x)

/-- The storage commitment and the class commitment of a state. -/
def St.commitments {F} [DecidableEq F] (o : Ops F) (H : Nat) (isSys : Key → Bool) (S : St F) : F × F :=
  (specRoot o.ped H (S.leaves o H isSys), specRoot o.pos H (S.classLeaves o))

/-- An update the program can be given: maps have distinct keys, all keys have the height of the tries, and the system contracts are
separate. -/
structure Update.Ok {F} (H : Nat) (isSys : Key → Bool) (u : Update F) : Prop where
  contracts : (u.contracts.map (·.1)).Nodup
  system : (u.system.map (·.1)).Nodup
  user : ∀ p ∈ u.contracts, isSys p.1 = false
  sys : ∀ p ∈ u.system, isSys p.1 = true
  addr : ∀ p ∈ u.contracts, p.1.length = H
  sysAddr : ∀ p ∈ u.system, p.1.length = H
  keys : ∀ p ∈ u.contracts, ∀ q ∈ p.2.storage, q.1.length = H
  sysKeys : ∀ p ∈ u.system, ∀ q ∈ p.2, q.1.length = H
  classes : ∀ p ∈ u.sierra ++ u.migrated, p.1.length = H

/-- Every contract that is updated has a class, by this update or an earlier one. -/
def Update.Classes {F} (S : St F) (u : Update F) : Prop := ∀ p ∈ u.contracts, p.2.cls = none → S.cls p.1 ≠ none

/-- Two lists of entries are the same map. -/
def SameMap {α : Type} (l l' : List (Key × α)) : Prop :=
  (l.map (·.1)).Nodup ∧ (l'.map (·.1)).Nodup ∧ ∀ k, l.lookup k = l'.lookup k

/-- Two updates with the same changes, in any order of their maps. -/
structure Update.Same {F} (u u' : Update F) : Prop where
  contracts : ∀ a, (u.contracts.lookup a = none ∧ u'.contracts.lookup a = none) ∨
    ∃ c c', u.contracts.lookup a = some c ∧ u'.contracts.lookup a = some c' ∧ c.cls = c'.cls ∧ c.nonce = c'.nonce ∧
      SameMap c.storage c'.storage
  system : ∀ a, (u.system.lookup a = none ∧ u'.system.lookup a = none) ∨
    ∃ c c', u.system.lookup a = some c ∧ u'.system.lookup a = some c' ∧ SameMap c c'
  sierra : SameMap u.sierra u'.sierra
  migrated : SameMap u.migrated u'.migrated

end Verif.Commit
