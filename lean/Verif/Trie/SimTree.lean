/-
Whole-tree simulation: `set`, `get`, `commit`, and one block applied to a stored trie.
-/
import Verif.Trie.SimInsert

namespace Verif.Trie

variable {F : Type} [DecidableEq F] {o : FeltOps F} {S : Storage F}

/-- The in-memory tree `t` over storage `S` has content `c`.  `L0` are the storage indices of the trie the tree
was loaded from: they are split between `nodes_removed` and the indices the tree still accounts for. -/
def MRep (o : FeltOps F) (S : Storage F) (H : Nat) (t : MTree F) (c : Content F) (L0 : List Nat) : Prop :=
  ∃ L, L0.Perm (t.nodesRemoved ++ L) ∧
    match t.root with
    | none => L = [] ∧ c = Content.empty
    | some n => ∃ tr, Rep o S (leafValue S t.leaves) [] n tr L ∧ tr.Wf o H ∧ tr.get = c

omit [DecidableEq F] in
theorem leafValue_cons (leaves : List (List Bool × F)) (k : List Bool) (v : F) (q : List Bool) :
    leafValue S ((k, v) :: leaves) q = if q = k then some v else leafValue S leaves q := by
  unfold leafValue
  rw [List.lookup_cons]
  by_cases h : q = k
  · simp [h]
  · have : (q == k) = false := by simpa using h
    simp [this, h]

omit [DecidableEq F] in
theorem MRep.get_length {H : Nat} {t : MTree F} {c : Content F} {L0} (h : MRep o S H t c L0) :
    ∀ k v, c k = some v → k.length = H ∧ v ≠ o.zero := by
  obtain ⟨L, _, h⟩ := h
  intro k v hk
  split at h
  · rw [h.2] at hk; simp [Content.empty] at hk
  · obtain ⟨tr, _, hw, rfl⟩ := h
    refine ⟨?_, hw.get_ne_zero k v hk⟩
    apply Classical.byContradiction
    intro hne
    rw [hw.get_none k hne] at hk
    simp at hk

theorem set_ok {H : Nat} (hH : 0 < H) {t : MTree F} {c : Content F} {L0}
    (h : MRep o S H t c L0) {k : List Bool} (hk : k.length = H) (v : F) :
    ∃ t', t.set o S H k v = .ok t' ∧ MRep o S H t' (c.write o k v) L0 ∧
      ∀ i, t'.root ≠ some (.unresolved i) := by
  obtain ⟨L, hperm, hm⟩ := h
  unfold MTree.set
  by_cases hv : v = o.zero
  · rw [if_pos hv]
    subst hv
    unfold MTree.delete
    cases hroot : t.root with
    | none =>
      rw [hroot] at hm
      refine ⟨t, rfl, ⟨L, hperm, ?_⟩, by simp [hroot]⟩
      rw [hroot]
      refine ⟨hm.1, ?_⟩
      rw [hm.2]
      funext q
      simp [Content.write, Content.empty]
    | some node =>
      rw [hroot] at hm
      obtain ⟨tr, hr, hw, rfl⟩ := hm
      obtain ⟨res, e, hd⟩ := delNode_ok (H := H) (key := k) (travFuel H) [] H k node tr L hr hw (by simp) hk rfl
        (need_le _ _)
      simp only [List.length_nil] at e
      simp only [e, bind, Except.bind, pure, Except.pure]
      cases res with
      | absent n =>
        obtain ⟨hg, hr', hres⟩ := hd
        refine ⟨_, rfl, ⟨L, hperm, tr, hr', hw, ?_⟩, by rintro i ⟨⟩; simp [INode.resolved] at hres⟩
        funext q
        by_cases hq : q = k
        · subst hq; simp [Content.write, hg]
        · simp [Content.write, hq]
      | vanish idxs =>
        obtain ⟨_, hg, hL⟩ := hd
        refine ⟨_, rfl, ⟨[], ?_, rfl, ?_⟩, by simp⟩
        · simp only [List.append_nil]
          exact hperm.trans (hL.append_left _)
        · funext q
          by_cases hq : q = k
          · subst hq; simp [Content.write, Content.empty]
          · simp [Content.write, hq, hg q hq, Content.empty]
      | newEdge h' p' c' rem idxs =>
        obtain ⟨_, t', L', rfl, _, hr', hw', hg, hL⟩ := hd
        refine ⟨_, rfl, ⟨L', ?_, t', hr', hw', ?_⟩, by simp⟩
        · simp only [List.append_assoc] at hL ⊢
          exact hperm.trans (hL.append_left _)
        · funext q
          rw [hg]
          simp [Content.write]
      | done n rem idxs =>
        obtain ⟨_, t', L', hr', hw', hg, hL, _, hres⟩ := hd
        refine ⟨_, rfl, ⟨L', ?_, t', hr', hw', ?_⟩, by rintro i ⟨⟩; simp [INode.resolved] at hres⟩
        · simp only [List.append_assoc] at hL ⊢
          exact hperm.trans (hL.append_left _)
        · funext q
          rw [hg]
          simp [Content.write]
  · rw [if_neg hv]
    cases hroot : t.root with
    | none =>
      rw [hroot] at hm
      obtain ⟨rfl, rfl⟩ := hm
      refine ⟨_, rfl, ⟨[], hperm, .edge k (.leaf v), ?_, ?_, ?_⟩, by simp⟩
      · refine Rep.edge (pfx := []) (si := none) (L := []) (Rep.leaf ?_)
        rw [leafValue_cons]
        simp
      · exact ⟨0, by simp [hk], by rintro rfl; simp at hk; omega, rfl, rfl, hv⟩
      · funext q
        simp only [Tree.get, Content.write, Content.empty, hv, if_false]
        by_cases hq : q = k
        · subst hq; simp [Tree.get]
        · rw [if_neg hq]
          split
          · rename_i hp
            obtain ⟨s, rfl⟩ := hp
            cases s with
            | nil => simp at hq
            | cons => simp [Tree.get]
          · rfl
    | some node =>
      rw [hroot] at hm
      obtain ⟨tr, hr, hw, rfl⟩ := hm
      obtain ⟨n', rem, t', L', e, hr', hw', hg, hL, _, hres⟩ := setNode_ok (H := H) (lk := leafValue S t.leaves) (o := o)
        (key := k) hv (leafValue_cons (S := S) t.leaves k v) (travFuel H) [] H k node tr L hr hw (by simp) hk rfl
        (need_le _ _)
      simp only [List.length_nil] at e
      simp only [e, bind, Except.bind, pure, Except.pure]
      refine ⟨_, rfl, ⟨L', ?_, t', hr', hw', ?_⟩, by rintro i ⟨⟩; simp [INode.resolved] at hres⟩
      · simp only [List.append_assoc]
        exact hperm.trans (hL.append_left _)
      · funext q
        rw [hg]
        simp [Content.write, hv]

omit [DecidableEq F] in
theorem get_ok {H : Nat} {t : MTree F} {c : Content F} {L0}
    (h : MRep o S H t c L0) {k : List Bool} (hk : k.length = H) :
    ∃ t', t.get S H k = .ok (c k, t') ∧ MRep o S H t' c L0 := by
  obtain ⟨L, hperm, hm⟩ := h
  unfold MTree.get
  cases hroot : t.root with
  | none =>
    rw [hroot] at hm
    refine ⟨t, by simp [hm.2, Content.empty], L, hperm, ?_⟩
    rw [hroot]
    exact hm
  | some node =>
    rw [hroot] at hm
    obtain ⟨tr, hr, hw, rfl⟩ := hm
    obtain ⟨n', b, e, hr', hg⟩ := getNode_ok (H := H) (key := k) (travFuel H) [] H k node tr L hr hw (by simp) hk rfl
      (need_le _ _)
    simp only [List.length_nil] at e
    simp only [e, bind, Except.bind, pure, Except.pure]
    refine ⟨{ t with root := some n' }, ?_, L, hperm, tr, hr', hw, rfl⟩
    rw [hg]

omit [DecidableEq F] in
theorem specRoot_empty (H : Nat) : specRoot o H (Content.empty : Content F) = o.zero := by
  unfold specRoot Content.empty
  rw [Tree.specNode_none]

omit [DecidableEq F] in
/-- What a commit returns. -/
theorem commit_ok {H : Nat} (hH : 0 < H) (hH2 : H < 256) {t : MTree F} {c : Content F} {L0}
    (h : MRep o S H t c L0) :
    ∃ u, t.commit o S = .ok u ∧ u.rootCommitment = specRoot o H c ∧
      ((t.root = none ∧ u.nodesAdded = [] ∧ u.nodesRemoved = t.nodesRemoved) ∨
       (∃ i, t.root = some (.unresolved i) ∧ u.nodesAdded = [] ∧ u.nodesRemoved = t.nodesRemoved) ∨
       (u.nodesAdded ≠ [] ∧ RefsOk u.nodesAdded ∧ ∃ tr K, tr.Wf o H ∧ tr.get = c ∧
        CRep o S (leafValue S t.leaves) u.nodesAdded 0 u.nodesAdded.length []
          (some (.index (u.nodesAdded.length - 1))) tr K ∧ L0.Perm (u.nodesRemoved ++ K))) := by
  obtain ⟨L, hperm, hm⟩ := h
  unfold MTree.commit
  cases hroot : t.root with
  | none =>
    rw [hroot] at hm
    refine ⟨_, rfl, ?_, .inl ⟨rfl, rfl, rfl⟩⟩
    rw [hm.2, specRoot_empty]
  | some node =>
    rw [hroot] at hm
    obtain ⟨tr, hr, hw, rfl⟩ := hm
    have main : node.resolved = true → ∃ u, (do
        let (h, _, added, removed) ← commitSubtree o S t.leaves node [] [] []
        return (⟨added, removed ++ t.nodesRemoved, h⟩ : TrieUpdate F) : Except Err _) = .ok u ∧
        u.rootCommitment = specRoot o H tr.get ∧
        (u.nodesAdded ≠ [] ∧ RefsOk u.nodesAdded ∧ ∃ tr' K, tr'.Wf o H ∧ tr'.get = tr.get ∧
          CRep o S (leafValue S t.leaves) u.nodesAdded 0 u.nodesAdded.length []
          (some (.index (u.nodesAdded.length - 1))) tr' K ∧ L0.Perm (u.nodesRemoved ++ K)) := by
      intro hres
      obtain ⟨ref, new, rem, K, e, hc, hok, hL, hne⟩ := commitSubtree_ok hr hw [] [] (by intro k h n hk; simp at hk)
      simp only [List.nil_append, List.length_nil] at e hc hok
      have hne := hne hres (.inr hH)
      refine ⟨_, by simp only [e, bind, Except.bind, pure, Except.pure]; rfl,
        Tree.hash_eq_specRoot hw hH2, hne, hok, tr, K, hw, rfl, ?_, ?_⟩
      · have hpos := List.length_pos_iff.2 hne
        have : ref = some (.index (new.length - 1)) := by
          generalize hh : new.length = hi at hc hpos
          cases hc <;> first | rfl | omega
        rw [this] at hc
        exact hc
      · rw [List.perm_iff_count] at hperm hL ⊢
        intro a
        have h1 := hperm a
        have h2 := hL a
        simp only [List.count_append] at h1 h2 ⊢
        omega
    cases node with
    | unresolved i =>
      cases hr with
      | unresolved h =>
        have hh : S.hash i = some (tr.hash o) := by cases h <;> assumption
        simp only [hh]
        exact ⟨_, rfl, Tree.hash_eq_specRoot hw hH2, .inr (.inl ⟨i, rfl, rfl, rfl⟩)⟩
    | binary si h l r => obtain ⟨u, h1, h2, h3⟩ := main rfl; exact ⟨u, h1, h2, .inr (.inr h3)⟩
    | edge si h p c => obtain ⟨u, h1, h2, h3⟩ := main rfl; exact ⟨u, h1, h2, .inr (.inr h3)⟩
    | leaf => obtain ⟨u, h1, h2, h3⟩ := main rfl; exact ⟨u, h1, h2, .inr (.inr h3)⟩

/-- A trie stored in table `T` under the root index `root` with content `c`; `L` are its node indices.
Leaf values are looked up in `c` itself: they live in the state tables, not in the trie table. -/
def Stored (o : FeltOps F) (T : Table F) (H : Nat) (root : Option Nat) (c : Content F) (L : List Nat) : Prop :=
  match root with
  | none => L = [] ∧ c = Content.empty
  | some i => ∃ t, SRep o (T.storage c) c [] i t L ∧ t.Wf o H ∧ t.get = c

omit [DecidableEq F] in
theorem SRep.mem_self {lk} {pfx i t L} (h : SRep o S lk pfx i t L) : i ∈ L := by
  cases h <;> simp

omit [DecidableEq F] in
theorem SRep.mem_row {lk} {pfx i t L} (h : SRep o S lk pfx i t L) : ∀ j ∈ L, ∃ n, S.get j = some n := by
  induction h with
  | binary g hh _ _ ihl ihr =>
    intro j hj
    simp only [List.mem_cons, List.mem_append] at hj
    rcases hj with rfl | hj | hj
    · exact ⟨_, g⟩
    · exact ihl j hj
    · exact ihr j hj
  | leafBinary g hh h1 h2 => intro j hj; simp at hj; subst hj; exact ⟨_, g⟩
  | edge g hh _ ih =>
    intro j hj
    rcases List.mem_cons.1 hj with rfl | hj
    · exact ⟨_, g⟩
    · exact ih j hj
  | leafEdge g hh h1 => intro j hj; simp at hj; subst hj; exact ⟨_, g⟩

omit [DecidableEq F] in
/-- Every index of a stored trie has a row. -/
theorem Stored.row {T : Table F} {H root c L} (h : Stored o T H root c L) : ∀ j ∈ L, ∃ x, T.row j = some x := by
  intro j hj
  cases root with
  | none => rw [h.1] at hj; simp at hj
  | some i =>
    obtain ⟨t, hs, _⟩ := h
    obtain ⟨n, hn⟩ := hs.mem_row j hj
    simp only [Table.storage, Option.map_eq_some_iff] at hn
    obtain ⟨x, hx, _⟩ := hn
    exact ⟨x, hx⟩

omit [DecidableEq F] in
theorem Stored.content {T : Table F} {H root c L} (h : Stored o T H root c L) :
    ∀ k v, c k = some v → k.length = H ∧ v ≠ o.zero := by
  intro k v hk
  cases root with
  | none => rw [h.2] at hk; simp [Content.empty] at hk
  | some i =>
    obtain ⟨t, hs, hw, rfl⟩ := h
    refine ⟨?_, hw.get_ne_zero k v hk⟩
    apply Classical.byContradiction
    intro hne
    rw [hw.get_none k hne] at hk
    simp at hk

omit [DecidableEq F] in
/-- A stored trie survives any change of the table that keeps its rows. -/
theorem Stored.mono {T T' : Table F} {H root c L} (h : Stored o T H root c L)
    (hT : ∀ j ∈ L, T'.row j = T.row j) : Stored o T' H root c L := by
  cases root with
  | none => exact h
  | some i =>
    obtain ⟨t, hs, hw⟩ := h
    refine ⟨t, hs.congr_storage ?_, hw⟩
    intro j hj
    simp [Table.storage, hT j hj]

omit [DecidableEq F] in
theorem open_ok {T : Table F} {H root c L} (h : Stored o T H root c L) :
    MRep o (T.storage c) H (MTree.open root) c L := by
  cases root with
  | none => exact ⟨[], by simp [MTree.open, MTree.empty, h.1], rfl, h.2⟩
  | some i =>
    obtain ⟨t, hs, hw, hg⟩ := h
    exact ⟨L, by simp [MTree.open, MTree.load], t, Rep.unresolved hs, hw, hg⟩

theorem setMany_ok {H : Nat} (hH : 0 < H) {c : Content F} {L0} (ws : List (List Bool × F))
    (hws : ∀ w ∈ ws, w.1.length = H) {t : MTree F} (h : MRep o S H t c L0) :
    ∃ t', t.setMany o S H ws = .ok t' ∧ MRep o S H t' (c.writes o ws) L0 ∧
      (ws = [] → t' = t) ∧ (ws ≠ [] → ∀ i, t'.root ≠ some (.unresolved i)) := by
  induction ws generalizing t c with
  | nil => exact ⟨t, rfl, h, fun _ => rfl, fun h => absurd rfl h⟩
  | cons w ws ih =>
    obtain ⟨k, v⟩ := w
    obtain ⟨t1, e1, h1, hres⟩ := set_ok hH h (hws _ List.mem_cons_self) v
    obtain ⟨t2, e2, h2, hnil, hne⟩ := ih (fun w hw => hws w (List.mem_cons_of_mem _ hw)) h1
    refine ⟨t2, ?_, h2, by simp, fun _ => ?_⟩
    · simp [MTree.setMany, e1, bind, Except.bind, e2]
    · cases ws with
      | nil => rw [hnil rfl]; exact hres
      | cons => exact hne (by simp)

/-- Computing an update from table `Tc` and inserting it into a table `T` that has the same rows for the trie. -/
theorem update_ok {H : Nat} (hH : 0 < H) (hH2 : H < 256) {Tc T : Table F} {root : Option Nat} {c : Content F}
    {L : List Nat} (h : Stored o Tc H root c L) (hT : ∀ j ∈ L, T.row j = Tc.row j) (hnd : L.Nodup)
    (ws : List (List Bool × F)) (hws : ∀ w ∈ ws, w.1.length = H) :
    ∃ u T' ru L', computeUpdate o H Tc root c ws = .ok u ∧ u.rootCommitment = specRoot o H (c.writes o ws) ∧
      insertTrie o T u = .ok (T', ru) ∧
      Stored o T' H (ru.apply root) (c.writes o ws) L' ∧ L'.Nodup ∧
      (∀ i x, T.row i = some x → T'.row i = some x) ∧
      u.nodesRemoved.Nodup ∧ (∀ i, i ∈ u.nodesRemoved ↔ i ∈ L ∧ i ∉ L') ∧
      (∀ i ∈ L', i ∈ L ∨ T.row i = none) ∧
      (∀ i x, T'.row i = some x → T.row i = none → i ∈ L') ∧
      (ws ≠ [] → ru = .unchanged → root = none ∧ c.writes o ws = Content.empty) := by
  obtain ⟨t, et, ht, hnil, hne⟩ := setMany_ok hH ws hws (open_ok h)
  have hcont := ht.get_length
  obtain ⟨u, eu, hroot, hcase⟩ := commit_ok hH hH2 ht
  obtain ⟨Lc, hperm, hm⟩ := ht
  have ecu : computeUpdate o H Tc root c ws = .ok u := by
    simp only [computeUpdate, bind, Except.bind, et, eu]
  rcases hcase with ⟨hr, ha, hrem⟩ | ⟨i, hr, ha, hrem⟩ | ⟨ha, hok, tr, K, hw, hg, hc, hp⟩
  · -- the trie is empty now
    rw [hr] at hm
    obtain ⟨rfl, hemp⟩ := hm
    simp only [List.append_nil] at hperm
    rw [hemp, specRoot_empty] at hroot
    by_cases hrm : u.nodesRemoved = []
    · have hL : L = [] := by
        rw [hrem] at hrm
        rw [hrm] at hperm
        exact List.Perm.eq_nil hperm
      have hrn : root = none := by
        cases root with
        | none => rfl
        | some i =>
          obtain ⟨t, hs, _⟩ := h
          have := hs.mem_self
          rw [hL] at this
          simp at this
      subst hL
      subst hrn
      refine ⟨u, T, .unchanged, [], ecu, hroot.trans (by rw [hemp, specRoot_empty]), ?_, ⟨rfl, hemp⟩, List.nodup_nil,
        fun i x h => h, by rw [hrm]; exact List.nodup_nil, by simp [hrm], by simp, fun i x h h' => by simp [h'] at h,
        fun _ _ => ⟨rfl, hemp⟩⟩
      simp [insertTrie, ha, hrm, hroot]
    · refine ⟨u, T, .trieEmpty, [], ecu, hroot.trans (by rw [hemp, specRoot_empty]), ?_, ⟨rfl, hemp⟩, List.nodup_nil,
        fun i x h => h, ?_, ?_, by simp, fun i x h h' => by simp [h'] at h, fun _ h => by simp at h⟩
      · simp [insertTrie, ha, hrm, hroot]
      · rw [hrem]; exact hperm.nodup hnd
      · intro i; rw [hrem]; simp [hperm.mem_iff]
  · -- nothing was written
    have hws0 : ws = [] := by
      apply Classical.byContradiction
      intro hcon
      exact hne hcon i hr
    have ht0 := hnil hws0
    subst hws0
    have hopen : root = some i := by
      cases root with
      | none => rw [ht0] at hr; simp [MTree.open, MTree.empty] at hr
      | some j => rw [ht0] at hr; simp [MTree.open, MTree.load] at hr; rw [hr]
    have hrm : u.nodesRemoved = [] := by
      rw [hrem, ht0, hopen]
      rfl
    refine ⟨u, T, .unchanged, L, ecu, hroot, ?_, by simpa [Content.writes, RootIndexUpdate.apply] using h.mono hT, hnd, fun i x h => h,
      by rw [hrm]; exact List.nodup_nil, by simp [hrm], fun i hi => .inl hi, fun i x h h' => by simp [h'] at h,
      fun h => absurd rfl h⟩
    simp [insertTrie, ha, hrm]
  · -- new nodes
    have hpos := List.length_pos_iff.2 ha
    obtain ⟨s, hs, ecol⟩ := collect_ok hc _ rfl
    have ecol1 : collect u.nodesAdded (2 * u.nodesAdded.length + 1) [.index (u.nodesAdded.length - 1)] []
        = .ok (List.range' 0 u.nodesAdded.length).reverse := by
      have e : 2 * u.nodesAdded.length + 1 = (2 * u.nodesAdded.length + 1 - s) + s := by omega
      rw [e, ecol]
      cases (2 * u.nodesAdded.length + 1 - s) <;> simp [collect]
    obtain ⟨T', indices, eins, hidx, hnext, hrow⟩ :=
      insertAll_ok hok T.nextIdx u.nodesAdded.length 0 T [] (by omega) (by omega) (by simp)
    simp only [Nat.zero_add, Nat.add_zero] at hidx hnext hrow
    have hold : ∀ i x, T.row i = some x → T'.row i = some x := by
      intro i x hx
      have := Table.row_isSome_lt hx
      rw [hrow, if_neg (by omega)]
      exact hx
    -- the loaded tree agrees with the content on its leaves
    have hKL : ∀ j ∈ K, j ∈ L := fun j hj => hp.mem_iff.2 (List.mem_append.2 (.inr hj))
    have hrows := (h.mono hT).row
    have hKlt : ∀ j ∈ L, j < T.nextIdx := fun j hj => by
      obtain ⟨x, hx⟩ := hrows j hj
      exact Table.row_isSome_lt hx
    obtain ⟨L', hsr, hL'⟩ := hc.toSRep (S' := T'.storage (c.writes o ws)) (base := T.nextIdx)
      (by
        intro k hh node _ hk hget
        have : T'.row (T.nextIdx + k) = some (hh, node.conv T.nextIdx) := by
          rw [hrow, if_pos (by omega)]
          have : T.nextIdx + k - T.nextIdx = k := by omega
          rw [this, hget]
          rfl
        simp [Table.storage, this])
      (by
        intro j hj
        obtain ⟨x, hx⟩ := hrows j (hKL j hj)
        have := hold j x hx
        simp [Table.storage, this, ← hT j (hKL j hj), hx]) _ rfl
    simp only [Nat.sub_zero, Nat.add_zero] at hL'
    have hst : Stored o T' H (some (T.nextIdx + (u.nodesAdded.length - 1))) (c.writes o ws) L' := by
      refine ⟨tr, ?_, hw, hg⟩
      refine SRep.congr_content hsr ?_
      intro k v hk
      rw [hg] at hk
      simpa using hk
    have hpnd : (u.nodesRemoved ++ K).Nodup := hp.nodup hnd
    have hKnd : K.Nodup := (List.nodup_append.1 hpnd).2.1
    have hmem' : ∀ i, i ∈ L' ↔ i ∈ K ∨ (T.nextIdx ≤ i ∧ i < T.nextIdx + u.nodesAdded.length) := by
      intro i
      rw [hL'.mem_iff, List.mem_append, List.mem_range'_1]
    refine ⟨u, T', .updated (T.nextIdx + (u.nodesAdded.length - 1)), L', ecu, hroot, ?_, hst, ?_, hold,
      (List.nodup_append.1 hpnd).1, ?_, ?_, ?_, fun _ h => by simp at h⟩
    · have hne' : u.nodesAdded.isEmpty = false := by simpa using ha
      simp only [insertTrie, hne', bind, Except.bind, ecol1, pure, Except.pure, List.reverse_reverse, eins,
        hidx (u.nodesAdded.length - 1) (by omega)]
      simp
    · refine hL'.symm.nodup ?_
      rw [List.nodup_append]
      refine ⟨hKnd, List.nodup_range', ?_⟩
      intro a ha b hb hab
      subst hab
      have h1 := hKlt a (hKL a ha)
      rw [List.mem_range'_1] at hb
      omega
    · intro i
      rw [hmem' i]
      constructor
      · intro hi
        have hiL : i ∈ L := hp.mem_iff.2 (List.mem_append.2 (.inl hi))
        refine ⟨hiL, ?_⟩
        rintro (hK | hK)
        · exact (List.nodup_append.1 hpnd).2.2 i hi i hK rfl
        · have := hKlt i hiL; omega
      · rintro ⟨hiL, hn⟩
        rcases List.mem_append.1 (hp.mem_iff.1 hiL) with h | h
        · exact h
        · exact absurd (.inl h) hn
    · intro i hi
      rcases (hmem' i).1 hi with h | h
      · exact .inl (hKL i h)
      · right
        cases hx : T.row i with
        | none => rfl
        | some x => have := Table.row_isSome_lt hx; omega
    · intro i x hx hnone
      rw [hmem']
      right
      rw [hrow] at hx
      split at hx
      · assumption
      · rw [hnone] at hx; simp at hx


/-- One block applied to a stored trie. -/
theorem applyBlock_ok {H : Nat} (hH : 0 < H) (hH2 : H < 256) {T : Table F} {root : Option Nat} {c : Content F}
    {L : List Nat} (h : Stored o T H root c L) (hnd : L.Nodup) (ws : List (List Bool × F))
    (hws : ∀ w ∈ ws, w.1.length = H) :
    ∃ T' root' removed L', applyBlock o H T root c ws =
        .ok (T', root', specRoot o H (c.writes o ws), removed) ∧
      Stored o T' H root' (c.writes o ws) L' ∧ L'.Nodup ∧
      (∀ i x, T.row i = some x → T'.row i = some x) ∧
      removed.Nodup ∧ (∀ i, i ∈ removed ↔ i ∈ L ∧ i ∉ L') ∧
      (∀ i ∈ L', i ∈ L ∨ T.row i = none) ∧
      (∀ i x, T'.row i = some x → T.row i = none → i ∈ L') := by
  obtain ⟨u, T', ru, L', e1, e2, e3, h1, h2, h3, h4, h5, h6, h7, _⟩ :=
    update_ok hH hH2 h (fun _ _ => rfl) hnd ws hws
  refine ⟨T', ru.apply root, u.nodesRemoved, L', ?_, h1, h2, h3, h4, h5, h6, h7⟩
  simp only [applyBlock, bind, Except.bind, e1, e3, pure, Except.pure, e2]

end Verif.Trie
