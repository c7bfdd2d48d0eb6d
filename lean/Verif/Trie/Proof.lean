/-
Model of Merkle proof generation: `MerkleTree::get_proof(s)`, crates/merkle-tree/src/tree.rs 525-669,
and `TrieNode`, crates/common/src/trie.rs.
-/
import Verif.Trie.Store

namespace Verif.Trie

/-- `TrieNode`, common/src/trie.rs 11-15. -/
inductive PNode (F : Type) where
  | binary (left right : F)
  | edge (child : F) (path : List Bool)
deriving DecidableEq, Repr

/-- `TrieNode::hash`, common/src/trie.rs 18-31. -/
def PNode.hash {F} (o : FeltOps F) : PNode F → F
  | .binary l r => o.hash l r
  | .edge c p => o.add (o.hash c (o.ofBits p)) (o.ofNat (p.length % 256))

/-- The two caches of `get_proofs`, tree.rs 554-555 (`HashMap`s as association lists). -/
structure Caches (F : Type) where
  nodes : List (Nat × StoredNode)
  hashes : List (Nat × F)

/-- Cached node lookup, tree.rs 567-576. -/
def Caches.node {F} (S : Storage F) (c : Caches F) (i : Nat) : Except Err (StoredNode × Caches F) :=
  match c.nodes.lookup i with
  | some n => .ok (n, c)
  | none => match S.get i with
    | none => .error .missingNode
    | some n => .ok (n, { c with nodes := (i, n) :: c.nodes })

/-- Cached hash lookup, tree.rs 646-656. -/
def Caches.hash {F} (S : Storage F) (c : Caches F) (i : Nat) : Except Err (F × Caches F) :=
  match c.hashes.lookup i with
  | some h => .ok (h, c)
  | none => match S.hash i with
    | none => .error .missingHash
    | some h => .ok (h, { c with hashes := (i, h) :: c.hashes })

/-- `storage.hash(..)?.context(..)?`. -/
def needHash {F} (S : Storage F) (i : Nat) : Except Err F :=
  match S.hash i with
  | none => .error .missingHash
  | some h => .ok h

/-- `storage.leaf(..)?.context(..)?`. -/
def needLeaf {F} (S : Storage F) (k : List Bool) : Except Err F :=
  match S.leaf k with
  | none => .error .missingLeaf
  | some h => .ok h

/-- One iteration of the traversal, tree.rs 578-645: the proof node, the next index and the next height. -/
def proofStep {F} (S : Storage F) (key : List Bool) (height : Nat) :
    StoredNode → Except Err (PNode F × Option Nat × Nat)
  | .binary l r =>
    match key[height]? with
    | none => .error .tooHigh
    | some b => do
      let lh ← needHash S l
      let rh ← needHash S r
      return (.binary lh rh, some (if b then r else l), height + 1)
  | .edge c p =>
    if height + p.length ≤ key.length then do
      let ch ← needHash S c
      return (.edge ch p, if (key.drop height).take p.length = p then some c else none, height + p.length)
    else .error .tooHigh
  | .leafBinary =>
    if height ≤ key.length then do
      let lv ← needLeaf S (key.take height ++ [false])
      let rv ← needLeaf S (key.take height ++ [true])
      return (.binary lv rv, none, height)
    else .error .panic
  | .leafEdge p =>
    if height ≤ key.length then do
      let cv ← needLeaf S (key.take height ++ p)
      return (.edge cv p, none, height)
    else .error .panic

/-- The `while let Some(index)` loop for one key, tree.rs 559-662.
Simplification: `fuel` bounds the number of iterations; `H + 1` is proved sufficient. -/
def proofLoop {F} (S : Storage F) (key : List Bool) :
    Nat → Nat → Nat → Caches F → Except Err (List (PNode F × F) × Caches F)
  | 0, _, _, _ => .error .fuel
  | fuel + 1, idx, height, c => do
    let (n, c) ← c.node S idx
    let (pn, next, height') ← proofStep S key height n
    let (h, c) ← c.hash S idx
    match next with
    | none => return ([(pn, h)], c)
    | some j =>
      let (rest, c) ← proofLoop S key fuel j height' c
      return ((pn, h) :: rest, c)

/-- The loop over the keys, tree.rs 557-666. -/
def proofKeys {F} (S : Storage F) (H : Nat) (root : Nat) :
    List (List Bool) → Caches F → Except Err (List (List (PNode F × F)))
  | [], _ => .ok []
  | k :: ks, c => do
    let (p, c) ← proofLoop S k (H + 1) root 0 c
    let ps ← proofKeys S H root ks c
    return p :: ps

/-- `MerkleTree::get_proofs`, tree.rs 549-669. -/
def getProofs {F} (S : Storage F) (H : Nat) (root : Nat) (keys : List (List Bool)) :
    Except Err (List (List (PNode F × F))) :=
  proofKeys S H root keys ⟨[], []⟩

/-- `MerkleTree::get_proof`, tree.rs 525-532. -/
def getProof {F} (S : Storage F) (H : Nat) (root : Nat) (key : List Bool) : Except Err (List (PNode F × F)) := do
  match (← getProofs S H root [key]) with
  | p :: _ => return p
  | [] => .error .panic

end Verif.Trie
