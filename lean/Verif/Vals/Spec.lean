import Verif.Vals.Model
/-!
# Specification: who votes and who proposes

What a contract means by the values it returns, what a set of validators is, and who is in
it; independent of how the code computes them.
-/

namespace Verif.Vals

/-- An entry of the contract's list: an address, the field element that stands for a key,
and a number. -/
structure Entry where
  address : Nat
  keyFelt : Nat
  number : Nat
deriving DecidableEq

/-- How a Cairo contract returns an array of such structs: its length, then the fields. -/
def encode (l : List Entry) : List Nat :=
  l.length :: l.flatMap (fun e => [e.address, e.keyFelt, e.number])

/-- `ps` are the participants that the entries state. -/
inductive Reads {K : Type} (toKey : Nat → Option K) : List Entry → List (Validator K) → Prop
  | nil : Reads toKey [] []
  | cons {e : Entry} {key : K} {l : List Entry} {ps : List (Validator K)} :
      toKey e.keyFelt = some key → Reads toKey l ps → Reads toKey (e :: l) (⟨e.address, key, e.number⟩ :: ps)

/-- In order of addresses, each address once. -/
def Sorted {K : Type} : List (Validator K) → Prop
  | [] => True
  | v :: vs => (∀ w ∈ vs, v.address < w.address) ∧ Sorted vs

/-- `v` is the last one in the list with its address. -/
def LastOf {K : Type} (vs : List (Validator K)) (v : Validator K) : Prop :=
  ∃ pre post, vs = pre ++ v :: post ∧ ∀ w ∈ post, w.address ≠ v.address

/-- The addresses of those who vote, as configured. -/
def Votes (c : Config) (a : Nat) : Prop := a = c.me ∨ a ∈ c.validators

/-- The least of the addresses. -/
def Least (as : List Nat) (a : Nat) : Prop := a ∈ as ∧ ∀ b ∈ as, a ≤ b

end Verif.Vals
