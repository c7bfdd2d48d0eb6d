/-
Model of the Merkle-Patricia trie of pathfinder.

Sources:
* crates/merkle-tree/src/tree.rs
* crates/merkle-tree/src/merkle_node.rs
* crates/merkle-tree/src/storage.rs
* crates/storage/src/connection/trie.rs (node storage part: `insert_trie`, `Node`, `StoredNode`)

Conventions.  A `BitVec<u8, Msb0>` / `BitSlice` is a `List Bool`.  A `Felt` is an element of an
arbitrary type `F`; the operations used on it are collected in `FeltOps`.  `Rc<RefCell<InternalNode>>`
is a plain inductive tree: the Rust code never lets two live parents share one cell (every clone of an `Rc`
is moved into the replacement of its previous parent), so in-place mutation is modelled by returning the
modified tree.  Errors (`anyhow::Error`) and panics are explicit `Err` values.
-/
namespace Verif.Trie

/-- Operations on field elements used by the trie: `Felt::ZERO`, `FeltHash::hash` (Pedersen or Poseidon,
an arbitrary function here), `Felt::from_bits`, the conversion of a small number to `Felt`, and `Felt + Felt`. -/
structure FeltOps (F : Type) where
  zero : F
  hash : F → F → F
  ofBits : List Bool → F
  ofNat : Nat → F
  add : F → F → F

/-- `BinaryNode::calculate_hash`, merkle_node.rs 120-122. -/
def FeltOps.binHash {F} (o : FeltOps F) (l r : F) : F := o.hash l r

/-- `EdgeNode::calculate_hash`, merkle_node.rs 179-187 (and `TrieNode::hash`, common/src/trie.rs 19-31).
The length is truncated to a byte (`path.len() as u8`).
Simplification: `Felt::from_bits(path).unwrap()` panics above 251 bits; no caller builds such a path
(see `HEIGHT`), so the conversion is total here. -/
def FeltOps.edgeHash {F} (o : FeltOps F) (child : F) (path : List Bool) : F :=
  o.add (o.hash child (o.ofBits path)) (o.ofNat (path.length % 256))

/-- `StoredNode`, storage/src/connection/trie.rs 786-800. -/
inductive StoredNode where
  | binary (left right : Nat)
  | edge (child : Nat) (path : List Bool)
  | leafBinary
  | leafEdge (path : List Bool)
deriving DecidableEq, Repr

/-- The `Storage` trait, merkle-tree/src/storage.rs.  A failing database read (`Err`) is not modelled;
`None` is a missing row. -/
structure Storage (F : Type) where
  get : Nat → Option StoredNode
  hash : Nat → Option F
  leaf : List Bool → Option F

/-- `InternalNode`, merkle_node.rs 17-55. -/
inductive INode where
  | unresolved (idx : Nat)
  | binary (storageIndex : Option Nat) (height : Nat) (left right : INode)
  | edge (storageIndex : Option Nat) (height : Nat) (path : List Bool) (child : INode)
  | leaf
deriving DecidableEq, Repr

/-- `MerkleTree`, tree.rs 69-79.  The `HashMap` of leaf values is an association list in which an insertion
shadows earlier ones. `verify_hashes` is never read by the code and is dropped. -/
structure MTree (F : Type) where
  root : Option INode
  leaves : List (List Bool × F)
  nodesRemoved : List Nat

/-- Failure modes. -/
inductive Err where
  | missingNode | missingHash | missingLeaf | tooHigh | inconsistent | panic | fuel | badIndex
deriving DecidableEq, Repr

/-- `MerkleTree::empty`, tree.rs 98-106. -/
def MTree.empty {F} : MTree F := ⟨none, [], []⟩

/-- `MerkleTree::new`, tree.rs 82-91. -/
def MTree.load {F} (root : Nat) : MTree F := ⟨some (.unresolved root), [], []⟩

/-- `InternalNode::storage_index`, merkle_node.rs 148-155. -/
def INode.storageIndex : INode → Option Nat
  | .unresolved i => some i
  | .binary si _ _ _ => si
  | .edge si _ _ _ => si
  | .leaf => none

/-- `self.leaves.get(path)` falling back to `storage.leaf(path)`, tree.rs 174-181 and 514-518. -/
def leafValue {F} (S : Storage F) (leaves : List (List Bool × F)) (path : List Bool) : Option F :=
  match leaves.lookup path with
  | some v => some v
  | none => S.leaf path

/-- `MerkleTree::resolve`, tree.rs 732-776.  `H` is the const generic `HEIGHT`. -/
def resolve {F} (S : Storage F) (H idx height : Nat) : Except Err INode :=
  if height < H then
    match S.get idx with
    | none => .error .missingNode
    | some (.binary l r) => .ok (.binary (some idx) height (.unresolved l) (.unresolved r))
    | some (.edge c p) => .ok (.edge (some idx) height p (.unresolved c))
    | some .leafBinary => .ok (.binary (some idx) height .leaf .leaf)
    | some (.leafEdge p) => .ok (.edge (some idx) height p .leaf)
  else .error .tooHigh

/-- `EdgeNode::path_matches`, merkle_node.rs 161-163: slices `key[height..height+len]`, which panics when the
key is too short. -/
def pathMatches (height : Nat) (path key : List Bool) : Except Err Bool :=
  if height + path.length ≤ key.length then
    .ok (decide (path = (key.drop height).take path.length))
  else .error .panic

/-- Length of the common prefix of two bit strings (`zip` / `take_while` / `count`). -/
def commonLen : List Bool → List Bool → Nat
  | a :: as, b :: bs => if a = b then commonLen as bs + 1 else 0
  | _, _ => 0

/-- `EdgeNode::common_path`, merkle_node.rs 169-177. -/
def commonPath (height : Nat) (path key : List Bool) : List Bool :=
  path.take (commonLen (key.drop height) path)

/-- Wrap a child into an edge unless the path is empty (tree.rs 314-339 and 355-363). -/
def edgeOr (height : Nat) (path : List Bool) (child : INode) : INode :=
  if path.isEmpty then child else .edge none height path child

/-- The split of a diverging edge in `MerkleTree::set`, tree.rs 299-364.  Indexing past the end of the key or
of the edge path panics in Rust. -/
def splitEdge (height : Nat) (path : List Bool) (child : INode) (key : List Bool) : Except Err INode :=
  let common := commonPath height path key
  let branchHeight := height + common.length
  let childHeight := branchHeight + 1
  if childHeight ≤ key.length ∧ common.length + 1 ≤ path.length then
    let newPath := key.drop childHeight
    let oldPath := path.drop (common.length + 1)
    let new := edgeOr childHeight newPath .leaf
    let old := edgeOr childHeight oldPath child
    match key[branchHeight]? with
    | some false => .ok (edgeOr height common (.binary none branchHeight new old))
    | some true => .ok (edgeOr height common (.binary none branchHeight old new))
    | none => .error .panic
  else .error .panic

/-- `MerkleTree::traverse` (tree.rs 684-726) followed by the replacement of the last visited node in
`MerkleTree::set` (tree.rs 273-376).  The loop is a recursion; nodes are resolved in place on the way down.
Returns the updated subtree and the indices pushed on `nodes_removed`.
Simplification: the unbounded Rust loop gets `fuel` iterations; `setFuel` below is proved to be enough on
every well-formed trie. -/
def setNode {F} (S : Storage F) (H : Nat) (key : List Bool) :
    Nat → Nat → INode → Except Err (INode × List Nat)
  | 0, _, _ => .error .fuel
  | fuel + 1, height, node =>
    match node with
    | .unresolved idx => do
      let n ← resolve S H idx height
      setNode S H key fuel height n
    | .binary si h l r =>
      match key[h]? with
      | none => .error .panic
      | some false => do
        let (l', rem) ← setNode S H key fuel (height + 1) l
        return (.binary si h l' r, rem)
      | some true => do
        let (r', rem) ← setNode S H key fuel (height + 1) r
        return (.binary si h l r', rem)
    | .edge si h path child => do
      if (← pathMatches h path key) then
        let (c', rem) ← setNode S H key fuel (height + path.length) child
        return (.edge si h path c', rem)
      else
        let n ← splitEdge h path child key
        return (n, si.toList)
    | .leaf => .ok (.leaf, [])

/-- Number of loop iterations of `traverse` that suffices for a trie of height `H`: every node on the path is
visited at most twice (once unresolved, once resolved) and the path has at most `H + 1` nodes. -/
def travFuel (H : Nat) : Nat := 2 * H + 2

/-- `MerkleTree::merge_edges`, tree.rs 786-803, on the fields of the parent edge.  Returns the new path, the
new child and the index pushed on `nodes_removed`. -/
def mergeEdges {F} (S : Storage F) (H : Nat) (height : Nat) (path : List Bool) (child : INode) :
    Except Err (List Bool × INode × List Nat) := do
  let resolved ← match child with
    | .unresolved i => resolve S H i (height + path.length)
    | other => .ok other
  match resolved with
  | .edge si _ p c => return (path ++ p, c, si.toList)
  | _ => return (path, child, [])

/-- Outcome of the deletion below some node. -/
inductive DelRes where
  /-- the leaf does not exist (tree.rs 425-431); nodes on the path have been resolved in place -/
  | absent (node : INode)
  /-- everything visited so far, from the leaf upwards, is not a binary node: `indexes_removed` so far -/
  | vanish (indexes : List Nat)
  /-- the nearest binary has just been replaced by this new edge (height, path, child);
  `removed` has been pushed on `nodes_removed`, `indexes` is `indexes_removed` -/
  | newEdge (height : Nat) (path : List Bool) (child : INode) (removed indexes : List Nat)
  /-- finished -/
  | done (node : INode) (removed indexes : List Nat)

/-- `MerkleTree::delete_leaf`, tree.rs 403-498: traversal (recursion down), then the walk back up
(`skip_while` to the nearest binary, replacement of the binary by an edge, merge with a parent edge). -/
def delNode {F} (S : Storage F) (H : Nat) (key : List Bool) :
    Nat → Nat → INode → Except Err DelRes
  | 0, _, _ => .error .fuel
  | fuel + 1, height, node =>
    match node with
    | .unresolved idx => do
      let n ← resolve S H idx height
      delNode S H key fuel height n
    | .binary si h l r =>
      match key[h]? with
      | none => .error .panic
      | some b => do
        let child := if b then r else l
        let other := if b then l else r
        match (← delNode S H key fuel (height + 1) child) with
        | .absent c' => return .absent (if b then .binary si h l c' else .binary si h c' r)
        | .vanish idxs =>
          -- tree.rs 450-475: edge with the inverted direction bit to the remaining child
          let (p, c, rem) ← mergeEdges S H h [!b] other
          return .newEdge h p c (rem ++ si.toList) idxs
        | .newEdge h' p' c' rem idxs =>
          -- the parent of the new edge is this binary node: no merge (tree.rs 488-492)
          let e := INode.edge none h' p' c'
          return .done (if b then .binary si h l e else .binary si h e r) rem idxs
        | .done c' rem idxs => return .done (if b then .binary si h l c' else .binary si h c' r) rem idxs
    | .edge si h path child => do
      if (← pathMatches h path key) then
        match (← delNode S H key fuel (height + path.length) child) with
        | .absent c' => return .absent (.edge si h path c')
        | .vanish idxs => return .vanish (idxs ++ si.toList)
        | .newEdge h' p' c' rem idxs =>
          -- the parent of the new edge is an edge: merge (tree.rs 488-492)
          let (p, c, rem') ← mergeEdges S H h path (.edge none h' p' c')
          return .done (.edge si h p c) (rem ++ rem') idxs
        | .done c' rem idxs => return .done (.edge si h path c') rem idxs
      else return .absent (.edge si h path child)
    | .leaf => .ok (.vanish [])

/-- `MerkleTree::delete_leaf`, tree.rs 403-498, on the whole tree. -/
def MTree.delete {F} (S : Storage F) (H : Nat) (t : MTree F) (key : List Bool) : Except Err (MTree F) :=
  match t.root with
  | none => .ok t
  | some node => do
    match (← delNode S H key (travFuel H) 0 node) with
    | .absent n => return { t with root := some n }
    | .vanish idxs => return { t with root := none, nodesRemoved := t.nodesRemoved ++ idxs }
    | .newEdge h p c rem idxs =>
      return { t with root := some (.edge none h p c), nodesRemoved := t.nodesRemoved ++ rem ++ idxs }
    | .done n rem idxs =>
      return { t with root := some n, nodesRemoved := t.nodesRemoved ++ rem ++ idxs }

/-- `MerkleTree::set`, tree.rs 261-396. -/
def MTree.set {F} [DecidableEq F] (o : FeltOps F) (S : Storage F) (H : Nat) (t : MTree F)
    (key : List Bool) (value : F) : Except Err (MTree F) :=
  if value = o.zero then t.delete S H key
  else
    match t.root with
    | none => .ok { root := some (.edge none 0 key .leaf), leaves := (key, value) :: t.leaves,
                    nodesRemoved := t.nodesRemoved }
    | some node => do
      let (n, rem) ← setNode S H key (travFuel H) 0 node
      return { root := some n, leaves := (key, value) :: t.leaves, nodesRemoved := t.nodesRemoved ++ rem }

/-- `traverse` as used by `get`: the last visited node and the tree with the visited nodes resolved in place
(`get` takes `&self` but the cells are updated). Returns whether a leaf was reached. -/
def getNode {F} (S : Storage F) (H : Nat) (key : List Bool) :
    Nat → Nat → INode → Except Err (INode × Bool)
  | 0, _, _ => .error .fuel
  | fuel + 1, height, node =>
    match node with
    | .unresolved idx => do
      let n ← resolve S H idx height
      getNode S H key fuel height n
    | .binary si h l r =>
      match key[h]? with
      | none => .error .panic
      | some false => do
        let (l', b) ← getNode S H key fuel (height + 1) l
        return (.binary si h l' r, b)
      | some true => do
        let (r', b) ← getNode S H key fuel (height + 1) r
        return (.binary si h l r', b)
    | .edge si h path child => do
      if (← pathMatches h path key) then
        let (c', b) ← getNode S H key fuel (height + path.length) child
        return (.edge si h path c', b)
      else return (.edge si h path child, false)
    | .leaf => .ok (.leaf, true)

/-- `MerkleTree::get`, tree.rs 501-522.  Returns the answer and the tree with the nodes resolved in place. -/
def MTree.get {F} (S : Storage F) (H : Nat) (t : MTree F) (key : List Bool) :
    Except Err (Option F × MTree F) :=
  match t.root with
  | none => .ok (none, t)
  | some node => do
    let (n, isLeaf) ← getNode S H key (travFuel H) 0 node
    let t' := { t with root := some n }
    return (if isLeaf then leafValue S t.leaves key else none, t')

/-- `NodeRef`, storage/src/connection/trie.rs 775-783. -/
inductive NodeRef where
  | storageIndex (idx : Nat)
  | index (i : Nat)
deriving DecidableEq, Repr

/-- `Node`, storage/src/connection/trie.rs 758-772. -/
inductive Node where
  | binary (left right : NodeRef)
  | edge (child : NodeRef) (path : List Bool)
  | leafBinary
  | leafEdge (path : List Bool)
deriving DecidableEq, Repr

/-- `MerkleTree::commit_subtree`, tree.rs 155-258.  The mutable vectors `added` and `removed` are threaded
through. -/
def commitSubtree {F} (o : FeltOps F) (S : Storage F) (leaves : List (List Bool × F)) :
    INode → List Bool → List (F × Node) → List Nat →
    Except Err (F × Option NodeRef × List (F × Node) × List Nat)
  | .unresolved idx, _, added, removed =>
    match S.hash idx with
    | none => .error .missingHash
    | some h => .ok (h, some (.storageIndex idx), added, removed)
  | .leaf, path, added, removed =>
    match leafValue S leaves path with
    | none => .error .missingLeaf
    | some v => .ok (v, none, added, removed)
  | .binary si _ l r, path, added, removed => do
    let (lh, lref, added, removed) ← commitSubtree o S leaves l (path ++ [false]) added removed
    let (rh, rref, added, removed) ← commitSubtree o S leaves r (path ++ [true]) added removed
    let hash := o.binHash lh rh
    match lref, rref with
    | none, none =>
      .ok (hash, some (.index added.length), added ++ [(hash, .leafBinary)], removed ++ si.toList)
    | some a, some b =>
      .ok (hash, some (.index added.length), added ++ [(hash, .binary a b)], removed ++ si.toList)
    | _, _ => .error .inconsistent
  | .edge si _ p c, path, added, removed => do
    let (ch, cref, added, removed) ← commitSubtree o S leaves c (path ++ p) added removed
    let hash := o.edgeHash ch p
    match cref with
    | none =>
      .ok (hash, some (.index added.length), added ++ [(hash, .leafEdge p)], removed ++ si.toList)
    | some a =>
      .ok (hash, some (.index added.length), added ++ [(hash, .edge a p)], removed ++ si.toList)

/-- `TrieUpdate`, storage/src/connection/trie.rs 638-652. -/
structure TrieUpdate (F : Type) where
  nodesAdded : List (F × Node)
  nodesRemoved : List Nat
  rootCommitment : F

/-- `MerkleTree::commit`, tree.rs 110-146. -/
def MTree.commit {F} (o : FeltOps F) (S : Storage F) (t : MTree F) : Except Err (TrieUpdate F) :=
  match t.root with
  | none => .ok ⟨[], t.nodesRemoved, o.zero⟩
  | some (.unresolved idx) =>
    match S.hash idx with
    | none => .error .missingHash
    | some h => .ok ⟨[], t.nodesRemoved, h⟩
  | some n => do
    let (h, _, added, removed) ← commitSubtree o S t.leaves n [] [] []
    return ⟨added, removed ++ t.nodesRemoved, h⟩

end Verif.Trie
