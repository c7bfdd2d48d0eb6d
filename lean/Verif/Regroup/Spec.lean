import Verif.Regroup.Model
import Verif.Body.Spec
/-!
# Old databases, and what has to become of them
-/
namespace Verif.Regroup
open Verif.Block (F Tx Receipt Event)

/-- What holds of the old tables: hashes and the numbers of headers are keys, the transactions of a block are numbered without gaps, and a row is stored
under the hash of its transaction. -/
structure OldOk {E : Type} (w : World E) : Prop where
  hashes : (w.old.map (·.hash)).Nodup
  numbers : (w.headers.map (·.number)).Nodup
  dense : ∀ n, ((w.old.filter fun r => r.number == n).map (·.idx)).Perm (List.range (w.old.filter fun r => r.number == n).length)
  hash : ∀ r ∈ w.old, ∀ t, w.decode r.body = some t → t.1.1.hash = r.hash

/-- A transaction with its receipt and its events is in the old table, in this block and at this place. -/
def At {E : Type} (w : World E) (n i : Nat) (t : (Tx × Receipt) × List Event) : Prop :=
  ∃ r ∈ w.old, r.number = n ∧ r.idx = i ∧ w.decode r.body = some t

/-- Every row can be decoded. -/
def Decodes {E : Type} (w : World E) : Prop := ∀ r ∈ w.old, (w.decode r.body).isSome

/-- Every transaction is of a block with a header. -/
def Owned {E : Type} (w : World E) : Prop := ∀ r ∈ w.old, ∃ h ∈ w.headers, h.number = r.number

/-- A block has a row that cannot be decoded. -/
def Bad {E : Type} (w : World E) (n : Nat) : Prop := ∃ r ∈ w.old, r.number = n ∧ w.decode r.body = none

/-- Nobody can do anything any more. -/
def Stuck {E : Type} (w : World E) (s : Sys E) : Prop := ∀ a, step w s a = none

end Verif.Regroup
