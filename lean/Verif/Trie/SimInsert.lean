/-
Simulation lemmas for `insert_trie`: the nodes of a commit end up in the table and represent the tree.
-/
import Verif.Trie.SimCommit

namespace Verif.Trie

variable {F : Type} {o : FeltOps F} {S S' : Storage F} {lk lk' : List Bool → Option F}

theorem collect_ok {added : List (F × Node)} {lo hi pfx ref t L}
    (h : CRep o S lk added lo hi pfx ref t L) : ∀ r, ref = some r → ∃ s, s ≤ 2 * (hi - lo) + 1 ∧
      ∀ fuel stack acc, collect added (fuel + s) (r :: stack) acc
        = collect added fuel stack (acc ++ (List.range' lo (hi - lo)).reverse) := by
  induction h with
  | stored h =>
    rintro r ⟨⟩
    exact ⟨1, by omega, fun fuel stack acc => by simp [collect]⟩
  | leaf h => rintro r ⟨⟩
  | @binary lo mid hi pfx a b tl tr Ll Lr h1 h2 h ih1 ih2 =>
    rintro r ⟨⟩
    obtain ⟨s1, b1, e1⟩ := ih1 a rfl
    obtain ⟨s2, b2, e2⟩ := ih2 b rfl
    have l1 := h1.le
    have l2 := h2.le
    refine ⟨s1 + s2 + 1, by omega, fun fuel stack acc => ?_⟩
    have e : fuel + (s1 + s2 + 1) = ((fuel + s1) + s2) + 1 := by omega
    rw [e, collect]
    simp only [h]
    rw [e2, e1]
    congr 1
    rw [List.append_assoc, List.append_assoc]
    congr 1
    have e3 : hi + 1 - lo = (mid - lo) + (hi - mid) + 1 := by omega
    rw [e3, List.range'_concat, ← List.range'_append_1]
    simp only [List.reverse_append, List.reverse_cons, List.reverse_nil, List.nil_append, List.cons_append,
      Nat.one_mul]
    have e4 : lo + (mid - lo) = mid := by omega
    have e5 : lo + (mid - lo + (hi - mid)) = hi := by omega
    rw [e4, e5]
  | @leafBinary lo pfx vl vr h1 h2 h =>
    rintro r ⟨⟩
    refine ⟨1, by omega, fun fuel stack acc => ?_⟩
    rw [collect]
    simp [h]
  | @edge lo hi pfx a p t L h1 h ih1 =>
    rintro r ⟨⟩
    obtain ⟨s1, b1, e1⟩ := ih1 a rfl
    have l1 := h1.le
    refine ⟨s1 + 1, by omega, fun fuel stack acc => ?_⟩
    rw [← Nat.add_assoc, collect]
    simp only [h]
    rw [e1, List.append_assoc]
    congr 2
    have e3 : hi + 1 - lo = (hi - lo) + 1 := by omega
    rw [e3, List.range'_concat]
    have e5 : lo + (hi - lo) = hi := by omega
    simp [e5]
  | @leafEdge lo pfx p v h1 h =>
    rintro r ⟨⟩
    refine ⟨1, by omega, fun fuel stack acc => ?_⟩
    rw [collect]
    simp [h]

/-- All row ids of a table are below the next one. -/
theorem foldl_max_ge {α} (f : α → Nat) (l : List α) (a : Nat) : a ≤ l.foldl (fun m r => max m (f r)) a ∧
    ∀ r ∈ l, f r ≤ l.foldl (fun m r => max m (f r)) a := by
  induction l generalizing a with
  | nil => simp
  | cons x l ih =>
    simp only [List.foldl_cons]
    obtain ⟨h1, h2⟩ := ih (max a (f x))
    refine ⟨by omega, ?_⟩
    intro r hr
    rcases List.mem_cons.1 hr with rfl | hr
    · omega
    · exact h2 r hr

theorem Table.lt_nextIdx {T : Table F} {r} (h : r ∈ T.rows) : r.1 < T.nextIdx := by
  have := (foldl_max_ge (fun r : Nat × F × StoredNode => r.1) T.rows 0).2 r h
  unfold Table.nextIdx
  omega

theorem Table.row_isSome_lt {T : Table F} {i : Nat} {x} (h : T.row i = some x) : i < T.nextIdx := by
  unfold Table.row at h
  rw [Option.map_eq_some_iff] at h
  obtain ⟨r, hr, _⟩ := h
  have h1 := List.mem_of_find?_eq_some hr
  have h2 := List.find?_some hr
  simp at h2
  have := Table.lt_nextIdx h1
  omega

theorem Table.nextIdx_push (T : Table F) (x : F × StoredNode) :
    Table.nextIdx ⟨T.rows ++ [(T.nextIdx, x)]⟩ = T.nextIdx + 1 := by
  unfold Table.nextIdx
  simp only [List.foldl_append, List.foldl_cons, List.foldl_nil]
  omega

theorem Table.row_push (T : Table F) (x : F × StoredNode) (i : Nat) :
    Table.row ⟨T.rows ++ [(T.nextIdx, x)]⟩ i = if i = T.nextIdx then some x else T.row i := by
  unfold Table.row
  simp only [List.find?_append]
  by_cases hi : i = T.nextIdx
  · subst hi
    have : T.rows.find? (fun r => r.1 == T.nextIdx) = none := by
      rw [List.find?_eq_none]
      intro r hr
      have := Table.lt_nextIdx hr
      simp
      omega
    simp [this]
  · simp only [hi, if_false]
    have : ([(T.nextIdx, x)] : List (Nat × F × StoredNode)).find? (fun r => r.1 == i) = none := by
      simp
      omega
    rw [this]
    simp

/-- Storage index of a reference once new node `k` got index `base + k`. -/
def NodeRef.conv (base : Nat) : NodeRef → Nat
  | .storageIndex i => i
  | .index k => base + k

/-- Stored form of a node once new node `k` got index `base + k`. -/
def Node.conv (base : Nat) : Node → StoredNode
  | .binary l r => .binary (l.conv base) (r.conv base)
  | .edge c p => .edge (c.conv base) p
  | .leafBinary => .leafBinary
  | .leafEdge p => .leafEdge p

theorem refStored_ok {indices : List (Nat × Nat)} {base k : Nat}
    (hi : ∀ i, i < k → indices.lookup i = some (base + i)) {r : NodeRef} (hr : ∀ i ∈ r.refs, i < k) :
    refStored indices r = .ok (r.conv base) := by
  cases r with
  | storageIndex i => rfl
  | index i => simp [refStored, hi i (hr i (by simp [NodeRef.refs])), NodeRef.conv]

theorem asStored_ok {indices : List (Nat × Nat)} {base k : Nat}
    (hi : ∀ i, i < k → indices.lookup i = some (base + i)) {n : Node} (hr : ∀ i ∈ n.refs, i < k) :
    n.asStored indices = .ok (n.conv base) := by
  cases n with
  | binary l r =>
    simp only [Node.refs, List.mem_append] at hr
    simp [Node.asStored, bind, Except.bind, pure, Except.pure, Node.conv,
      refStored_ok hi (fun i h => hr i (.inl h)), refStored_ok hi (fun i h => hr i (.inr h))]
  | edge c p =>
    simp [Node.asStored, bind, Except.bind, pure, Except.pure, Node.conv,
      refStored_ok hi (fun i h => hr i h)]
  | leafBinary => rfl
  | leafEdge => rfl

theorem insertAll_ok {added : List (F × Node)} (hok : RefsOk added) (base : Nat) :
    ∀ m k (T : Table F) indices, k + m = added.length → T.nextIdx = base + k →
      (∀ i, i < k → indices.lookup i = some (base + i)) →
      ∃ T' indices', insertAll added (List.range' k m) T indices = .ok (T', indices') ∧
        (∀ i, i < k + m → indices'.lookup i = some (base + i)) ∧
        T'.nextIdx = base + (k + m) ∧
        (∀ i, T'.row i = if base + k ≤ i ∧ i < base + (k + m) then
            (added[i - base]?).map (fun x => (x.1, x.2.conv base)) else T.row i) := by
  intro m
  induction m with
  | zero =>
    intro k T indices hk hn hi
    refine ⟨T, indices, rfl, hi, hn, fun i => ?_⟩
    rw [if_neg (by omega)]
  | succ m ih =>
    intro k T indices hk hn hi
    have hlt : k < added.length := by omega
    obtain ⟨h, node, hget⟩ : ∃ h node, added[k]? = some (h, node) :=
      ⟨added[k].1, added[k].2, List.getElem?_eq_getElem hlt⟩
    have hs := asStored_ok hi (hok k h node hget)
    obtain ⟨T', indices', e, hi', hn', hrow⟩ := ih (k + 1) ⟨T.rows ++ [(T.nextIdx, h, node.conv base)]⟩
      ((k, T.nextIdx) :: indices) (by omega)
      (by rw [Table.nextIdx_push]; omega)
      (by
        intro i hik
        simp only [List.lookup_cons]
        by_cases hik' : i = k
        · subst hik'; simp [hn]
        · have : (i == k) = false := by simp [hik']
          rw [this]
          exact hi i (by omega))
    refine ⟨T', indices', ?_, ?_, ?_, ?_⟩
    · rw [List.range'_succ, insertAll]
      simp only [hget, bind, Except.bind, hs]
      exact e
    · intro i h'; exact hi' i (by omega)
    · rw [hn']; omega
    · intro i
      rw [hrow, Table.row_push]
      by_cases hc : i = T.nextIdx
      · rw [if_neg (by omega), if_pos hc, if_pos (by omega)]
        have : i - base = k := by omega
        rw [this, hget]
        rfl
      · rw [if_neg hc]
        by_cases hc2 : base + (k + 1) ≤ i ∧ i < base + (k + 1 + m)
        · rw [if_pos hc2, if_pos (by omega)]
        · rw [if_neg hc2, if_neg (by omega)]

/-- Committed subtrees are represented in any storage that contains the converted nodes. -/
theorem CRep.toSRep {added : List (F × Node)} {lo hi pfx ref t L} {base : Nat}
    (h : CRep o S lk added lo hi pfx ref t L)
    (hnew : ∀ k h node, lo ≤ k → k < hi → added[k]? = some (h, node) →
      S'.get (base + k) = some (node.conv base) ∧ S'.hash (base + k) = some h)
    (hold : ∀ j ∈ L, S'.get j = S.get j ∧ S'.hash j = S.hash j) :
    ∀ r, ref = some r → ∃ L', SRep o S' lk pfx (r.conv base) t L' ∧
      L'.Perm (L ++ (List.range' (base + lo) (hi - lo))) := by
  induction h with
  | stored h =>
    rintro r ⟨⟩
    exact ⟨_, h.congr_storage hold, by simp⟩
  | leaf h => rintro r ⟨⟩
  | @binary lo mid hi pfx a b tl tr Ll Lr h1 h2 h ih1 ih2 =>
    rintro r ⟨⟩
    have l1 := h1.le
    have l2 := h2.le
    obtain ⟨L1, s1, p1⟩ := ih1 (fun k h n a b c => hnew k h n (by omega) (by omega) c)
      (fun j hj => hold j (by simp [hj])) a rfl
    obtain ⟨L2, s2, p2⟩ := ih2 (fun k h n a b c => hnew k h n (by omega) (by omega) c)
      (fun j hj => hold j (by simp [hj])) b rfl
    have h3 := hnew hi _ _ (by omega) (by omega) h
    refine ⟨_, SRep.binary h3.1 h3.2 s1 s2, ?_⟩
    have e3 : hi + 1 - lo = (mid - lo) + (hi - mid) + 1 := by omega
    rw [e3, List.range'_concat, ← List.range'_append_1]
    have e4 : base + lo + (mid - lo) = base + mid := by omega
    have e5 : base + lo + 1 * (mid - lo + (hi - mid)) = base + hi := by omega
    rw [e4, e5]
    rw [List.perm_iff_count] at *
    intro x
    have h1 := p1 x
    have h2 := p2 x
    simp only [List.count_append, List.count_cons, NodeRef.conv, List.count_nil] at *
    omega
  | @leafBinary lo pfx vl vr h1 h2 h =>
    rintro r ⟨⟩
    have h3 := hnew lo _ _ (by omega) (by omega) h
    exact ⟨_, SRep.leafBinary h3.1 h3.2 h1 h2, by simp [NodeRef.conv]⟩
  | @edge lo hi pfx a p t L h1 h ih1 =>
    rintro r ⟨⟩
    have l1 := h1.le
    obtain ⟨L1, s1, p1⟩ := ih1 (fun k h n a b c => hnew k h n (by omega) (by omega) c)
      (fun j hj => hold j hj) a rfl
    have h3 := hnew hi _ _ (by omega) (by omega) h
    refine ⟨_, SRep.edge h3.1 h3.2 s1, ?_⟩
    have e3 : hi + 1 - lo = (hi - lo) + 1 := by omega
    rw [e3, List.range'_concat]
    have e5 : base + lo + 1 * (hi - lo) = base + hi := by omega
    rw [e5]
    rw [List.perm_iff_count] at *
    intro x
    have h1 := p1 x
    simp only [List.count_append, List.count_cons, NodeRef.conv, List.count_nil] at *
    omega
  | @leafEdge lo pfx p v h1 h =>
    rintro r ⟨⟩
    have h3 := hnew lo _ _ (by omega) (by omega) h
    exact ⟨_, SRep.leafEdge h3.1 h3.2 h1, by simp [NodeRef.conv]⟩

end Verif.Trie
