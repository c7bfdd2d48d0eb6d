/-
Independent specification of the Starknet state trie.

The Starknet documentation defines the commitment of a map from fixed-length bit strings to non-zero field
elements through a complete binary tree of triples (length, path, bottom): an empty subtree is (0,0,0); a node
with one empty child extends the path of the other child; a node with two non-empty children is
(0, 0, H(left hash, right hash)); the hash of a triple is `bottom` if length = 0 and
`H(bottom, path) + length` otherwise.
-/
import Verif.Trie.Model

namespace Verif.Trie

/-- Content of a trie: a partial map from keys to values. -/
abbrev Content (F : Type) := List Bool → Option F

/-- Writing `v` at `k`; writing zero erases. -/
def Content.write {F} [DecidableEq F] (o : FeltOps F) (m : Content F) (k : List Bool) (v : F) : Content F :=
  fun k' => if k' = k then (if v = o.zero then none else some v) else m k'

/-- Writing a list of key-value pairs, first pair first. -/
def Content.writes {F} [DecidableEq F] (o : FeltOps F) (m : Content F) (ws : List (List Bool × F)) : Content F :=
  ws.foldl (fun m w => m.write o w.1 w.2) m

/-- The empty content. -/
def Content.empty {F} : Content F := fun _ => none

/-- Hash of a (path, bottom) pair; the length of the path is implicit. -/
def specVal {F} (o : FeltOps F) (x : List Bool × F) : F :=
  if x.1 = [] then x.2 else o.add (o.hash x.2 (o.ofBits x.1)) (o.ofNat x.1.length)

/-- The (path, bottom) pair of the subtree of height `n` with the given content; `none` if empty. -/
def specNode {F} (o : FeltOps F) : (n : Nat) → Content F → Option (List Bool × F)
  | 0, m => (m []).map fun v => ([], v)
  | n + 1, m =>
    match specNode o n (fun k => m (false :: k)), specNode o n (fun k => m (true :: k)) with
    | none, none => none
    | some (p, b), none => some (false :: p, b)
    | none, some (p, b) => some (true :: p, b)
    | some x, some y => some ([], o.hash (specVal o x) (specVal o y))

/-- The commitment of a content of keys of length `n`. -/
def specRoot {F} (o : FeltOps F) (n : Nat) (m : Content F) : F :=
  match specNode o n m with
  | none => o.zero
  | some x => specVal o x

end Verif.Trie
