/-
Mathematical Patricia trees: the abstraction of both the in-memory and the stored tries.
Nothing here models code; these are proof devices.
-/
import Verif.Trie.Spec

namespace Verif.Trie

/-- A Patricia tree. -/
inductive Tree (F : Type) where
  | leaf (v : F)
  | bin (l r : Tree F)
  | edge (p : List Bool) (c : Tree F)

namespace Tree
variable {F : Type}

def isEdge : Tree F → Bool
  | edge _ _ => true
  | _ => false

/-- Well-formed tree of height `n`. -/
def Wf (o : FeltOps F) : Nat → Tree F → Prop
  | n, leaf v => n = 0 ∧ v ≠ o.zero
  | n, bin l r => ∃ m, n = m + 1 ∧ Wf o m l ∧ Wf o m r
  | n, edge p c => ∃ m, n = p.length + m ∧ p ≠ [] ∧ c.isEdge = false ∧ Wf o m c

/-- Content of a tree. -/
def get : Tree F → List Bool → Option F
  | leaf v, [] => some v
  | leaf _, _ :: _ => none
  | bin _ _, [] => none
  | bin l r, b :: k => if b then get r k else get l k
  | edge p c, k => if p <+: k then get c (k.drop p.length) else none

/-- Hash of a tree. -/
def hash (o : FeltOps F) : Tree F → F
  | leaf v => v
  | bin l r => o.binHash (hash o l) (hash o r)
  | edge p c => o.edgeHash (hash o c) p

/-- (path, bottom) of a tree. -/
def node (o : FeltOps F) : Tree F → List Bool × F
  | leaf v => ([], v)
  | bin l r => ([], o.binHash (hash o l) (hash o r))
  | edge p c => (p, hash o c)

theorem Wf.get_none {o : FeltOps F} {n : Nat} {t : Tree F} (h : Wf o n t) :
    ∀ k : List Bool, k.length ≠ n → t.get k = none := by
  induction t generalizing n with
  | leaf v =>
    intro k hk
    cases k with
    | nil => simp [Wf] at h; simp [h.1] at hk
    | cons => rfl
  | bin l r ihl ihr =>
    obtain ⟨m, rfl, hl, hr⟩ := h
    intro k hk
    cases k with
    | nil => rfl
    | cons b k =>
      simp only [List.length_cons, ne_eq, Nat.add_right_cancel_iff] at hk
      cases b
      · simpa [get] using ihl hl k hk
      · simpa [get] using ihr hr k hk
  | edge p c ih =>
    obtain ⟨m, rfl, hp, hc, hw⟩ := h
    intro k hk
    simp only [get]
    split
    · rename_i hpre
      obtain ⟨s, rfl⟩ := hpre
      simp only [List.length_append, ne_eq, Nat.add_left_cancel_iff] at hk
      simpa using ih hw s hk
    · rfl

/-- Every well-formed tree has a non-empty content. -/
theorem Wf.exists_get {o : FeltOps F} {n : Nat} {t : Tree F} (h : Wf o n t) :
    ∃ k v, t.get k = some v := by
  induction t generalizing n with
  | leaf v => exact ⟨[], v, rfl⟩
  | bin l r ihl ihr =>
    obtain ⟨m, rfl, hl, hr⟩ := h
    obtain ⟨k, v, hk⟩ := ihl hl
    exact ⟨false :: k, v, by simpa [get] using hk⟩
  | edge p c ih =>
    obtain ⟨m, rfl, hp, hc, hw⟩ := h
    obtain ⟨k, v, hk⟩ := ih hw
    exact ⟨p ++ k, v, by simpa [get] using hk⟩

theorem Wf.get_ne_zero {o : FeltOps F} {n : Nat} {t : Tree F} (h : Wf o n t) :
    ∀ k v, t.get k = some v → v ≠ o.zero := by
  induction t generalizing n with
  | leaf v =>
    intro k w hk
    cases k with
    | nil => simp [get] at hk; subst hk; exact h.2
    | cons => simp [get] at hk
  | bin l r ihl ihr =>
    obtain ⟨m, rfl, hl, hr⟩ := h
    intro k w hk
    cases k with
    | nil => simp [get] at hk
    | cons b k =>
      cases b
      · exact ihl hl k w (by simpa [get] using hk)
      · exact ihr hr k w (by simpa [get] using hk)
  | edge p c ih =>
    obtain ⟨m, rfl, hp, hc, hw⟩ := h
    intro k w hk
    simp only [get] at hk
    split at hk
    · exact ih hw _ w hk
    · simp at hk

theorem specNode_none (o : FeltOps F) (n : Nat) : specNode o n (fun _ => none) = none := by
  induction n with
  | zero => rfl
  | succ n ih => simp [specNode, ih]

theorem specVal_node {o : FeltOps F} {n : Nat} {t : Tree F} (hw : Wf o n t) (hn : n < 256) :
    specVal o (t.node o) = t.hash o := by
  cases t with
  | leaf v => rfl
  | bin l r => rfl
  | edge p c =>
    obtain ⟨m, rfl, hp, hc, hw⟩ := hw
    simp only [node, specVal, hp, if_false, hash, FeltOps.edgeHash]
    rw [Nat.mod_eq_of_lt (by omega)]

/-- Extending the path of a tree by leading bits, at the level of the specification. -/
theorem specNode_prefix (o : FeltOps F) {m : Nat} {g : Content F} {q : List Bool} {b : F}
    (h : specNode o m g = some (q, b)) (p : List Bool) :
    specNode o (p.length + m) (fun k => if p <+: k then g (k.drop p.length) else none)
      = some (p ++ q, b) := by
  induction p with
  | nil => simpa using h
  | cons a p ih =>
    rw [List.length_cons, Nat.add_right_comm, specNode]
    cases a
    · simp [specNode_none, ih]
    · simp [specNode_none, ih]

theorem specNode_get {o : FeltOps F} {n : Nat} {t : Tree F} (hw : Wf o n t) (hn : n < 256) :
    specNode o n t.get = some (t.node o) := by
  induction t generalizing n with
  | leaf v => obtain ⟨rfl, _⟩ := hw; simp [specNode, get, node]
  | bin l r ihl ihr =>
    obtain ⟨m, rfl, hl, hr⟩ := hw
    have h1 := ihl hl (by omega)
    have h2 := ihr hr (by omega)
    have e1 : (fun k => (bin l r).get (false :: k)) = l.get := by funext k; simp [get]
    have e2 : (fun k => (bin l r).get (true :: k)) = r.get := by funext k; simp [get]
    rw [specNode, e1, e2, h1, h2]
    show some ([], o.hash (specVal o (l.node o)) (specVal o (r.node o))) = _
    rw [specVal_node hl (by omega), specVal_node hr (by omega)]
    rfl
  | edge p c ih =>
    obtain ⟨m, rfl, hp, hc, hw⟩ := hw
    have h1 := ih hw (by omega)
    have h2 := specNode_prefix o (q := (c.node o).1) (b := (c.node o).2) h1 p
    have e : (edge p c).get = fun k => if p <+: k then c.get (k.drop p.length) else none := by
      funext k; simp [get]
    rw [e, h2]
    cases c with
    | leaf v => simp [node, hash]
    | bin l r => simp [node, hash]
    | edge => simp [isEdge] at hc

/-- The hash of a well-formed tree is the specified commitment of its content. -/
theorem hash_eq_specRoot {o : FeltOps F} {n : Nat} {t : Tree F} (hw : Wf o n t) (hn : n < 256) :
    t.hash o = specRoot o n t.get := by
  rw [specRoot, specNode_get hw hn]
  exact (specVal_node hw hn).symm

end Tree

/-- A stored subtree: the node at index `i`, located at the key prefix `pfx`, represents the tree `t`;
`L` lists the indices of all its nodes.  `lk` is the lookup of leaf values. -/
inductive SRep {F} (o : FeltOps F) (S : Storage F) (lk : List Bool → Option F) :
    List Bool → Nat → Tree F → List Nat → Prop
  | binary {pfx i l r tl tr Ll Lr} : S.get i = some (.binary l r) →
      S.hash i = some ((Tree.bin tl tr).hash o) →
      SRep o S lk (pfx ++ [false]) l tl Ll → SRep o S lk (pfx ++ [true]) r tr Lr →
      SRep o S lk pfx i (.bin tl tr) (i :: (Ll ++ Lr))
  | leafBinary {pfx i vl vr} : S.get i = some .leafBinary →
      S.hash i = some ((Tree.bin (.leaf vl) (.leaf vr)).hash o) →
      lk (pfx ++ [false]) = some vl → lk (pfx ++ [true]) = some vr →
      SRep o S lk pfx i (.bin (.leaf vl) (.leaf vr)) [i]
  | edge {pfx i c p t L} : S.get i = some (.edge c p) →
      S.hash i = some ((Tree.edge p t).hash o) →
      SRep o S lk (pfx ++ p) c t L → SRep o S lk pfx i (.edge p t) (i :: L)
  | leafEdge {pfx i p v} : S.get i = some (.leafEdge p) →
      S.hash i = some ((Tree.edge p (.leaf v)).hash o) →
      lk (pfx ++ p) = some v → SRep o S lk pfx i (.edge p (.leaf v)) [i]

/-- An in-memory subtree located at the key prefix `pfx` represents `t`; `L` lists the storage indices it
accounts for: those of its loaded nodes and those of all nodes below its unresolved references. -/
inductive Rep {F} (o : FeltOps F) (S : Storage F) (lk : List Bool → Option F) :
    List Bool → INode → Tree F → List Nat → Prop
  | unresolved {pfx i t L} : SRep o S lk pfx i t L → Rep o S lk pfx (.unresolved i) t L
  | binary {pfx si l r tl tr Ll Lr} : Rep o S lk (pfx ++ [false]) l tl Ll →
      Rep o S lk (pfx ++ [true]) r tr Lr →
      Rep o S lk pfx (.binary si pfx.length l r) (.bin tl tr) (si.toList ++ (Ll ++ Lr))
  | edge {pfx si p c t L} : Rep o S lk (pfx ++ p) c t L →
      Rep o S lk pfx (.edge si pfx.length p c) (.edge p t) (si.toList ++ L)
  | leaf {pfx v} : lk pfx = some v → Rep o S lk pfx .leaf (.leaf v) []

variable {F : Type} {o : FeltOps F} {S : Storage F} {lk lk' : List Bool → Option F}

theorem SRep.congr {pfx i t L} (h : SRep o S lk pfx i t L)
    (hk : ∀ s, lk' (pfx ++ s) = lk (pfx ++ s)) : SRep o S lk' pfx i t L := by
  induction h with
  | binary g hh _ _ ihl ihr =>
    exact .binary g hh (ihl fun s => by simpa using hk (false :: s)) (ihr fun s => by simpa using hk (true :: s))
  | leafBinary g hh h1 h2 => exact .leafBinary g hh (by rw [hk, h1]) (by rw [hk, h2])
  | edge g hh _ ih => exact .edge g hh (ih fun s => by simpa [List.append_assoc] using hk (_ ++ s))
  | leafEdge g hh h1 => exact .leafEdge g hh (by rw [hk, h1])

theorem Rep.congr {pfx n t L} (h : Rep o S lk pfx n t L)
    (hk : ∀ s, lk' (pfx ++ s) = lk (pfx ++ s)) : Rep o S lk' pfx n t L := by
  induction h with
  | unresolved h => exact .unresolved (h.congr hk)
  | binary _ _ ihl ihr =>
    exact .binary (ihl fun s => by simpa using hk (false :: s)) (ihr fun s => by simpa using hk (true :: s))
  | edge _ ih => exact .edge (ih fun s => by simpa [List.append_assoc] using hk (_ ++ s))
  | leaf h1 => exact .leaf (by simpa [h1] using hk [])

/-- A node is already loaded. -/
def INode.resolved : INode → Bool
  | .unresolved _ => false
  | _ => true

theorem resolve_ok {H : Nat} {pfx i t L n} (h : SRep o S lk pfx i t L) (hw : t.Wf o n)
    (hn : pfx.length + n = H) :
    ∃ node, resolve S H i pfx.length = .ok node ∧ Rep o S lk pfx node t L ∧ node.resolved = true := by
  have hpos : 0 < n := by
    cases h with
    | binary | leafBinary => obtain ⟨m, rfl, _⟩ := hw; omega
    | edge | leafEdge =>
      obtain ⟨m, rfl, hp, _⟩ := hw
      have := List.length_pos_iff.2 hp
      omega
  have hlt : pfx.length < H := by omega
  cases h with
  | binary g hh hl hr =>
    refine ⟨_, ?_, Rep.binary (si := some i) (.unresolved hl) (.unresolved hr), rfl⟩
    simp [resolve, hlt, g]
  | leafBinary g hh h1 h2 =>
    refine ⟨_, ?_, Rep.binary (si := some i) (.leaf h1) (.leaf h2), rfl⟩
    simp [resolve, hlt, g]
  | edge g hh hc =>
    refine ⟨_, ?_, Rep.edge (si := some i) (.unresolved hc), rfl⟩
    simp [resolve, hlt, g]
  | leafEdge g hh h1 =>
    refine ⟨_, ?_, Rep.edge (si := some i) (.leaf h1), rfl⟩
    simp [resolve, hlt, g]

end Verif.Trie
