/-
Specification of proof verification, as documented on `get_proofs` (tree.rs 541-547): the chain follows the path
of the key, the hashes are correct, and the root hash matches the known root.  An edge node has a non-empty path,
and a proof is complete when the whole key has been consumed or an edge diverges from the key.
-/
import Verif.Trie.Proof

namespace Verif.Trie

/-- `some (some v)`: the proof shows value `v`; `some none`: it shows absence; `none`: rejected. -/
def verify {F} [DecidableEq F] (o : FeltOps F) : F → List Bool → List (PNode F) → Option (Option F)
  | h, [], [] => some (some h)
  | _, _ :: _, [] => none
  | _, [], _ :: _ => none
  | h, b :: k, .binary l r :: ps =>
    if (PNode.binary l r).hash o = h then verify o (if b then r else l) k ps else none
  | h, b :: k, .edge c p :: ps =>
    if (PNode.edge c p).hash o = h ∧ p ≠ [] ∧ p.length ≤ (b :: k).length then
      if p <+: (b :: k) then verify o c ((b :: k).drop p.length) ps
      else if ps.isEmpty then some none else none
    else none

/-- A hash collision: two different nodes, one from each proof, with the same hash. -/
def Collision {F} (o : FeltOps F) (p q : List (PNode F)) : Prop :=
  ∃ a ∈ p, ∃ b ∈ q, a ≠ b ∧ a.hash o = b.hash o

end Verif.Trie
