/-
Specification notions for stored tries, independent of the tree code.
-/
import Verif.Trie.Spec
import Verif.Trie.Store

namespace Verif.Trie

/-- Content after a list of blocks. -/
def contentAfter {F} [DecidableEq F] (o : FeltOps F) (blocks : List (List (List Bool × F))) : Content F :=
  blocks.foldl (fun c ws => c.writes o ws) Content.empty

/-- All keys written have the height of the trie. -/
def KeysOk {F} (H : Nat) (blocks : List (List (List Bool × F))) : Prop :=
  ∀ ws ∈ blocks, ∀ w ∈ ws, w.1.length = H

/-- Answers of a map to a list of operations. -/
def Op.spec {F} [DecidableEq F] (o : FeltOps F) : Content F → List (Op F) → List (Option F)
  | _, [] => []
  | c, .set k v :: ops => Op.spec o (c.write o k v) ops
  | c, .get k :: ops => c k :: Op.spec o c ops

/-- Final content of a map after a list of operations. -/
def Op.specFinal {F} [DecidableEq F] (o : FeltOps F) : Content F → List (Op F) → Content F
  | c, [] => c
  | c, .set k v :: ops => Op.specFinal o (c.write o k v) ops
  | c, .get _ :: ops => Op.specFinal o c ops

/-- Key used by an operation. -/
def Op.key {F} : Op F → List Bool
  | .set k _ => k
  | .get k => k

/-- Row `j` of the table can be reached from row `i` by following child references. -/
inductive Reach {F} (T : Table F) : Nat → Nat → Prop
  | refl {i x} : T.row i = some x → Reach T i i
  | left {i h l r j} : T.row i = some (h, .binary l r) → Reach T l j → Reach T i j
  | right {i h l r j} : T.row i = some (h, .binary l r) → Reach T r j → Reach T i j
  | child {i h c p j} : T.row i = some (h, .edge c p) → Reach T c j → Reach T i j

/-- Row `j` belongs to the trie with this root index (no row if the trie is empty). -/
def InTrie {F} (T : Table F) (root : Option Nat) (j : Nat) : Prop := ∃ i, root = some i ∧ Reach T i j

end Verif.Trie
