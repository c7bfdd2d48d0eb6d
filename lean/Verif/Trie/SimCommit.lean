/-
Simulation lemmas for `commit` and `insert_trie`.
-/
import Verif.Trie.SimDel
import Verif.Trie.Store

namespace Verif.Trie

variable {F : Type} {o : FeltOps F} {S S' : Storage F} {lk lk' : List Bool → Option F}

/-- Reference to another new node. -/
def NodeRef.refs : NodeRef → List Nat
  | .index i => [i]
  | .storageIndex _ => []

/-- References to other new nodes. -/
def Node.refs : Node → List Nat
  | .binary l r => l.refs ++ r.refs
  | .edge c _ => c.refs
  | _ => []

/-- All references between new nodes point backwards. -/
def RefsOk (added : List (F × Node)) : Prop :=
  ∀ (k : Nat) (h : F) (node : Node), added[k]? = some (h, node) → ∀ i ∈ node.refs, i < k

theorem RefsOk.append {added : List (F × Node)} {h : F} {node : Node} (hr : RefsOk added)
    (hn : ∀ i ∈ node.refs, i < added.length) : RefsOk (added ++ [(h, node)]) := by
  intro k h' node' hk i hi
  rw [List.getElem?_append] at hk
  split at hk
  · exact hr k h' node' hk i hi
  · rename_i hlt
    have : k - added.length = 0 := by
      rw [List.getElem?_eq_some_iff] at hk
      obtain ⟨hb, _⟩ := hk
      simpa using hb
    rw [this] at hk
    simp at hk
    obtain ⟨_, rfl⟩ := hk
    have := hn i hi
    omega

/-- A committed subtree: new nodes `lo..hi` of `added` plus stored subtrees with indices `L`. -/
inductive CRep (o : FeltOps F) (S : Storage F) (lk : List Bool → Option F) (added : List (F × Node)) :
    Nat → Nat → List Bool → Option NodeRef → Tree F → List Nat → Prop
  | stored {lo pfx i t L} : SRep o S lk pfx i t L →
      CRep o S lk added lo lo pfx (some (.storageIndex i)) t L
  | leaf {lo pfx v} : lk pfx = some v → CRep o S lk added lo lo pfx none (.leaf v) []
  | binary {lo mid hi pfx a b tl tr Ll Lr} :
      CRep o S lk added lo mid (pfx ++ [false]) (some a) tl Ll →
      CRep o S lk added mid hi (pfx ++ [true]) (some b) tr Lr →
      added[hi]? = some ((Tree.bin tl tr).hash o, .binary a b) →
      CRep o S lk added lo (hi + 1) pfx (some (.index hi)) (.bin tl tr) (Ll ++ Lr)
  | leafBinary {lo pfx vl vr} : lk (pfx ++ [false]) = some vl → lk (pfx ++ [true]) = some vr →
      added[lo]? = some ((Tree.bin (.leaf vl) (.leaf vr)).hash o, .leafBinary) →
      CRep o S lk added lo (lo + 1) pfx (some (.index lo)) (.bin (.leaf vl) (.leaf vr)) []
  | edge {lo hi pfx a p t L} : CRep o S lk added lo hi (pfx ++ p) (some a) t L →
      added[hi]? = some ((Tree.edge p t).hash o, .edge a p) →
      CRep o S lk added lo (hi + 1) pfx (some (.index hi)) (.edge p t) L
  | leafEdge {lo pfx p v} : lk (pfx ++ p) = some v →
      added[lo]? = some ((Tree.edge p (.leaf v)).hash o, .leafEdge p) →
      CRep o S lk added lo (lo + 1) pfx (some (.index lo)) (.edge p (.leaf v)) []

theorem getElem?_append_of_some {α} {l : List α} {i : Nat} {x : α} (h : l[i]? = some x) (l' : List α) :
    (l ++ l')[i]? = some x := by
  rw [List.getElem?_eq_some_iff] at h
  obtain ⟨hb, hx⟩ := h
  rw [List.getElem?_append_left hb, List.getElem?_eq_some_iff]
  exact ⟨hb, hx⟩

theorem CRep.mono {added : List (F × Node)} {lo hi pfx ref t L} (h : CRep o S lk added lo hi pfx ref t L)
    (more : List (F × Node)) : CRep o S lk (added ++ more) lo hi pfx ref t L := by
  induction h with
  | stored h => exact .stored h
  | leaf h => exact .leaf h
  | binary _ _ h ih1 ih2 => exact .binary ih1 ih2 (getElem?_append_of_some h _)
  | leafBinary h1 h2 h => exact .leafBinary h1 h2 (getElem?_append_of_some h _)
  | edge _ h ih => exact .edge ih (getElem?_append_of_some h _)
  | leafEdge h1 h => exact .leafEdge h1 (getElem?_append_of_some h _)

theorem CRep.le {added : List (F × Node)} {lo hi pfx ref t L} (h : CRep o S lk added lo hi pfx ref t L) :
    lo ≤ hi := by
  induction h with
  | stored => omega
  | leaf => omega
  | binary _ _ _ ih1 ih2 => omega
  | leafBinary => omega
  | edge _ _ ih => omega
  | leafEdge => omega

theorem CRep.none_leaf {added : List (F × Node)} {lo hi pfx t L}
    (h : CRep o S lk added lo hi pfx none t L) : ∃ v, t = .leaf v ∧ lk pfx = some v ∧ lo = hi ∧ L = [] := by
  cases h with
  | leaf h => exact ⟨_, rfl, h, rfl, rfl⟩

theorem CRep.some_not_leaf {added : List (F × Node)} {lo hi pfx r v L}
    (h : CRep o S lk added lo hi pfx (some r) (.leaf v) L) : False := by
  cases h with
  | stored h => cases h

theorem CRep.ref_lt {added : List (F × Node)} {lo hi pfx r t L}
    (h : CRep o S lk added lo hi pfx (some r) t L) (hle : hi ≤ added.length) : ∀ i ∈ r.refs, i < added.length := by
  cases h <;> simp [NodeRef.refs] <;> omega

theorem SRep.congr_content {pfx i t L} (h : SRep o S lk pfx i t L)
    (hlk : ∀ k v, t.get k = some v → lk' (pfx ++ k) = some v) : SRep o S lk' pfx i t L := by
  induction h with
  | binary g hh _ _ ihl ihr =>
    refine .binary g hh (ihl fun k v hk => ?_) (ihr fun k v hk => ?_)
    · simpa using hlk (false :: k) v (by simpa [Tree.get] using hk)
    · simpa using hlk (true :: k) v (by simpa [Tree.get] using hk)
  | leafBinary g hh h1 h2 =>
    exact .leafBinary g hh (hlk [false] _ (by simp [Tree.get])) (hlk [true] _ (by simp [Tree.get]))
  | edge g hh _ ih =>
    refine .edge g hh (ih fun k v hk => ?_)
    rw [List.append_assoc]
    exact hlk _ v (by simpa [Tree.get] using hk)
  | leafEdge g hh h1 => exact .leafEdge g hh (hlk _ _ (by simp [Tree.get]))

theorem SRep.congr_storage {pfx i t L} (h : SRep o S lk pfx i t L)
    (hS : ∀ j ∈ L, S'.get j = S.get j ∧ S'.hash j = S.hash j) : SRep o S' lk pfx i t L := by
  induction h with
  | binary g hh _ _ ihl ihr =>
    have h0 := hS _ (List.mem_cons_self)
    refine .binary (h0.1.trans g) (h0.2.trans hh) (ihl fun j hj => hS j ?_) (ihr fun j hj => hS j ?_) <;> simp [hj]
  | leafBinary g hh h1 h2 =>
    have h0 := hS _ (List.mem_cons_self)
    exact .leafBinary (h0.1.trans g) (h0.2.trans hh) h1 h2
  | edge g hh _ ih =>
    have h0 := hS _ (List.mem_cons_self)
    exact .edge (h0.1.trans g) (h0.2.trans hh) (ih fun j hj => hS j (by simp [hj]))
  | leafEdge g hh h1 =>
    have h0 := hS _ (List.mem_cons_self)
    exact .leafEdge (h0.1.trans g) (h0.2.trans hh) h1

/-- The leaf values found by a represented tree are its content. -/
theorem SRep.get_lk {pfx i t L} (h : SRep o S lk pfx i t L) : ∀ k v, t.get k = some v → lk (pfx ++ k) = some v := by
  induction h with
  | binary g hh _ _ ihl ihr =>
    intro k v hk
    cases k with
    | nil => simp [Tree.get] at hk
    | cons d k =>
      cases d
      · simpa using ihl k v (by simpa [Tree.get] using hk)
      · simpa using ihr k v (by simpa [Tree.get] using hk)
  | leafBinary g hh h1 h2 =>
    intro k v hk
    match k with
    | [] => simp [Tree.get] at hk
    | [false] => simp [Tree.get] at hk; rw [h1, hk]
    | [true] => simp [Tree.get] at hk; rw [h2, hk]
    | false :: _ :: _ => simp [Tree.get] at hk
    | true :: _ :: _ => simp [Tree.get] at hk
  | edge g hh _ ih =>
    intro k v hk
    simp only [Tree.get] at hk
    split at hk
    · rename_i hp
      obtain ⟨s, rfl⟩ := hp
      simpa using ih s v (by simpa using hk)
    · simp at hk
  | leafEdge g hh h1 =>
    intro k v hk
    simp only [Tree.get] at hk
    split at hk
    · rename_i hp
      obtain ⟨s, rfl⟩ := hp
      cases s with
      | nil => simp [Tree.get] at hk; simpa [hk] using h1
      | cons => simp [Tree.get] at hk
    · simp at hk

theorem Rep.get_lk {pfx n t L} (h : Rep o S lk pfx n t L) : ∀ k v, t.get k = some v → lk (pfx ++ k) = some v := by
  induction h with
  | unresolved h => exact h.get_lk
  | binary _ _ ihl ihr =>
    intro k v hk
    cases k with
    | nil => simp [Tree.get] at hk
    | cons d k =>
      cases d
      · simpa using ihl k v (by simpa [Tree.get] using hk)
      · simpa using ihr k v (by simpa [Tree.get] using hk)
  | edge _ ih =>
    intro k v hk
    simp only [Tree.get] at hk
    split at hk
    · rename_i hp
      obtain ⟨s, rfl⟩ := hp
      simpa using ih s v (by simpa using hk)
    · simp at hk
  | leaf h =>
    intro k v hk
    cases k with
    | nil => simp [Tree.get] at hk; simpa [hk] using h
    | cons => simp [Tree.get] at hk

theorem commitSubtree_ok {leaves : List (List Bool × F)} {node : INode} {pfx t L n}
    (h : Rep o S (leafValue S leaves) pfx node t L) (hw : t.Wf o n) :
    ∀ added removed, RefsOk added → ∃ ref new rem K,
      commitSubtree o S leaves node pfx added removed = .ok (t.hash o, ref, added ++ new, removed ++ rem) ∧
      CRep o S (leafValue S leaves) (added ++ new) added.length (added ++ new).length pfx ref t K ∧
      RefsOk (added ++ new) ∧ L.Perm (rem ++ K) ∧ (node.resolved = true → t.isEdge = true ∨ 0 < n → new ≠ []) := by
  induction h generalizing n with
  | @unresolved pfx i t L h =>
    intro added removed hok
    have hh : S.hash i = some (t.hash o) := by cases h <;> assumption
    refine ⟨some (.storageIndex i), [], [], L, by simp [commitSubtree, hh], ?_, by simpa using hok,
      List.Perm.refl _, by simp [INode.resolved]⟩
    simpa using CRep.stored h
  | @leaf pfx v h =>
    intro added removed hok
    refine ⟨none, [], [], [], by simp [commitSubtree, h, Tree.hash], ?_, by simpa using hok,
      List.Perm.refl _, ?_⟩
    · simpa using CRep.leaf h
    · obtain ⟨rfl, _⟩ := hw
      simp [Tree.isEdge]
  | @binary pfx si l r tl tr Ll Lr hl hr ihl ihr =>
    intro added removed hok
    obtain ⟨m, rfl, hwl, hwr⟩ := hw
    obtain ⟨ref1, new1, rem1, K1, e1, c1, ok1, p1, _⟩ := ihl hwl added removed hok
    obtain ⟨ref2, new2, rem2, K2, e2, c2, ok2, p2, _⟩ := ihr hwr (added ++ new1) (removed ++ rem1) ok1
    have hperm : (si.toList ++ (Ll ++ Lr)).Perm ((rem1 ++ rem2 ++ si.toList) ++ (K1 ++ K2)) := by
      rw [List.perm_iff_count] at *
      intro a
      have h1 := p1 a
      have h2 := p2 a
      simp only [List.count_append] at *
      omega
    cases ref1 with
    | none =>
      obtain ⟨v1, rfl, hv1, hlen1, rfl⟩ := c1.none_leaf
      obtain ⟨rfl, _⟩ := hwl
      have hn1 : new1 = [] := by simpa using hlen1
      subst hn1
      cases ref2 with
      | none =>
        obtain ⟨v2, rfl, hv2, hlen2, rfl⟩ := c2.none_leaf
        have hn2 : new2 = [] := by simpa using hlen2
        subst hn2
        simp only [List.append_nil] at *
        refine ⟨some (.index added.length), [((Tree.bin (.leaf v1) (.leaf v2)).hash o, .leafBinary)], rem1 ++ rem2 ++ si.toList, [], ?_, ?_, ?_,
          by simpa using hperm, by simp⟩
        · simp [commitSubtree, e1, e2, bind, Except.bind, Tree.hash]
        · simp only [List.length_append, List.length_cons, List.length_nil, Nat.zero_add]
          refine CRep.leafBinary hv1 hv2 (by simp [Tree.hash, FeltOps.binHash])
        · exact hok.append (by simp [Node.refs])
      | some b =>
        -- impossible: the right subtree has height 0
        exfalso
        cases tr with
        | leaf v => exact c2.some_not_leaf
        | bin => obtain ⟨_, h, _⟩ := hwr; omega
        | edge p c => obtain ⟨_, h, hp, _⟩ := hwr; have := List.length_pos_iff.2 hp; omega
    | some a =>
      cases ref2 with
      | none =>
        exfalso
        obtain ⟨v2, rfl, hv2, hlen2, rfl⟩ := c2.none_leaf
        obtain ⟨rfl, _⟩ := hwr
        cases tl with
        | leaf v => exact c1.some_not_leaf
        | bin => obtain ⟨_, h, _⟩ := hwl; omega
        | edge p c => obtain ⟨_, h, hp, _⟩ := hwl; have := List.length_pos_iff.2 hp; omega
      | some b =>
        refine ⟨some (.index (added ++ new1 ++ new2).length), new1 ++ new2 ++ [((Tree.bin tl tr).hash o, .binary a b)],
          rem1 ++ rem2 ++ si.toList, K1 ++ K2, ?_, ?_, ?_, hperm, by simp⟩
        · simp [commitSubtree, e1, e2, bind, Except.bind, Tree.hash]
        · have h1 := (c1.mono new2).mono [((Tree.bin tl tr).hash o, .binary a b)]
          have h2 := c2.mono [((Tree.bin tl tr).hash o, .binary a b)]
          have := CRep.binary h1 h2 (by simp [Tree.hash])
          simpa [Tree.hash, Nat.add_assoc] using this
        · have := ok2.append (h := o.binHash (tl.hash o) (tr.hash o)) (node := .binary a b) (by
            intro i hi
            simp only [Node.refs, List.mem_append] at hi
            rcases hi with hi | hi
            · have := (c1.mono new2).ref_lt (by simp) i hi
              exact this
            · exact c2.ref_lt (by simp) i hi)
          simpa [Tree.hash, Nat.add_assoc] using this
  | @edge pfx si p c t L hc ih =>
    intro added removed hok
    obtain ⟨m, rfl, hp, he, hwc⟩ := hw
    obtain ⟨ref1, new1, rem1, K1, e1, c1, ok1, p1, _⟩ := ih hwc added removed hok
    have hperm : (si.toList ++ L).Perm ((rem1 ++ si.toList) ++ K1) := by perm_count p1
    cases ref1 with
    | none =>
      obtain ⟨v1, rfl, hv1, hlen1, rfl⟩ := c1.none_leaf
      have hn1 : new1 = [] := by simpa using hlen1
      subst hn1
      simp only [List.append_nil] at *
      refine ⟨some (.index added.length), [((Tree.edge p (.leaf v1)).hash o, .leafEdge p)], rem1 ++ si.toList, [], ?_, ?_, ?_,
        by simpa using hperm, by simp⟩
      · simp [commitSubtree, e1, bind, Except.bind, Tree.hash]
      · simp only [List.length_append, List.length_cons, List.length_nil, Nat.zero_add]
        exact CRep.leafEdge hv1 (by simp [Tree.hash])
      · exact hok.append (by simp [Node.refs])
    | some a =>
      refine ⟨some (.index (added ++ new1).length), new1 ++ [((Tree.edge p t).hash o, .edge a p)], rem1 ++ si.toList, K1, ?_, ?_, ?_,
        hperm, by simp⟩
      · simp [commitSubtree, e1, bind, Except.bind, Tree.hash]
      · have h1 := c1.mono [((Tree.edge p t).hash o, .edge a p)]
        have := CRep.edge h1 (by simp [Tree.hash])
        simpa [Tree.hash, Nat.add_assoc] using this
      · have := ok1.append (h := o.edgeHash (t.hash o) p) (node := .edge a p) (by
          intro i hi
          exact c1.ref_lt (by simp) i hi)
        simpa [Tree.hash, Nat.add_assoc] using this

end Verif.Trie
