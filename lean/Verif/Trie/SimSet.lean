/-
Simulation lemmas: `get` and `set` on the lazily loaded trie act on the represented tree as a map.
-/
import Verif.Trie.Tree

namespace Verif.Trie

variable {F : Type} {o : FeltOps F} {S : Storage F} {lk lk' : List Bool → Option F}

theorem pathMatches_eq (pfx p k : List Bool) (h : p.length ≤ k.length) :
    pathMatches pfx.length p (pfx ++ k) = .ok (decide (p <+: k)) := by
  have : pfx.length + p.length ≤ (pfx ++ k).length := by simp; omega
  simp only [pathMatches, this, if_true, List.drop_left, Except.ok.injEq, decide_eq_decide]
  exact List.prefix_iff_eq_take.symm

theorem key_get (pfx : List Bool) (b : Bool) (k : List Bool) : (pfx ++ b :: k)[pfx.length]? = some b := by
  simp

/-- Fuel needed from a node at which `n` key bits remain. -/
def need (n : Nat) (node : INode) : Nat := 2 * n + 1 + (if node.resolved then 0 else 1)

theorem need_res {n : Nat} {node : INode} (h : node.resolved = true) : need n node = 2 * n + 1 := by
  simp [need, h]

/-- Permutation goals by counting. -/
macro "perm_count" h:ident : tactic => `(tactic| (
  rw [List.perm_iff_count] at $h:ident ⊢
  intro a
  have hcount := $h:ident a
  simp only [List.count_append] at hcount ⊢
  omega))

theorem need_le (n : Nat) (node : INode) : need n node ≤ 2 * n + 2 := by
  unfold need; split <;> omega

theorem getNode_ok {H : Nat} {key : List Bool} :
    ∀ fuel pfx n k node t L, Rep o S lk pfx node t L → t.Wf o n → pfx.length + n = H → k.length = n →
      key = pfx ++ k → need n node ≤ fuel →
      ∃ node' b, getNode S H key fuel pfx.length node = .ok (node', b) ∧ Rep o S lk pfx node' t L ∧
        t.get k = (if b then lk key else none) := by
  intro fuel
  induction fuel with
  | zero => intro pfx n k node t L _ _ _ _ _ hf; simp [need] at hf
  | succ fuel ih =>
    intro pfx n k node t L hr hw hn hk hkey hf
    cases hr with
    | @unresolved _ i _ _ h =>
      obtain ⟨node', e, hr', hres⟩ := resolve_ok h hw hn
      obtain ⟨node'', b, e2, hr2, hg⟩ := ih pfx n k node' t L hr' hw hn hk hkey (by
        rw [need_res hres]; simp [need, INode.resolved] at hf; omega)
      exact ⟨node'', b, by simp [getNode, e, bind, Except.bind, e2], hr2, hg⟩
    | @binary _ si l r tl tr Ll Lr hl hrr =>
      obtain ⟨m, rfl, hwl, hwr⟩ := hw
      simp only [need, INode.resolved, if_true] at hf
      cases k with
      | nil => simp at hk
      | cons d k =>
        simp only [List.length_cons, Nat.add_right_cancel_iff] at hk
        cases d
        · obtain ⟨l', b, e, hr', hg⟩ := ih (pfx ++ [false]) m k l tl Ll hl hwl (by simp; omega) hk
            (by simp [hkey]) (by have := need_le m l; omega)
          simp only [List.length_append, List.length_cons, List.length_nil, Nat.zero_add] at e
          refine ⟨_, b, ?_, Rep.binary (si := si) hr' hrr, by simpa [Tree.get] using hg⟩
          simp [getNode, hkey, bind, Except.bind, pure, Except.pure]
          rw [← hkey, e]
        · obtain ⟨l', b, e, hr', hg⟩ := ih (pfx ++ [true]) m k r tr Lr hrr hwr (by simp; omega) hk
            (by simp [hkey]) (by have := need_le m r; omega)
          simp only [List.length_append, List.length_cons, List.length_nil, Nat.zero_add] at e
          refine ⟨_, b, ?_, Rep.binary (si := si) hl hr', by simpa [Tree.get] using hg⟩
          simp [getNode, hkey, bind, Except.bind, pure, Except.pure]
          rw [← hkey, e]
    | @edge _ si p c t L hc =>
      obtain ⟨m, rfl, hp, hce, hwc⟩ := hw
      have hpos := List.length_pos_iff.2 hp
      simp only [need, INode.resolved, if_true] at hf
      have hpm := pathMatches_eq pfx p k (by omega)
      by_cases hpre : p <+: k
      · obtain ⟨s, rfl⟩ := hpre
        simp only [List.length_append, Nat.add_left_cancel_iff] at hk
        obtain ⟨c', b, e, hr', hg⟩ := ih (pfx ++ p) m s c t L hc hwc (by simp; omega) hk
          (by simp [hkey]) (by have := need_le m c; omega)
        simp only [List.length_append] at e
        refine ⟨_, b, ?_, Rep.edge (si := si) hr', by simpa [Tree.get] using hg⟩
        simp only [getNode, hkey, bind, Except.bind, hpm, pure, Except.pure]
        rw [← hkey, e]
        simp
      · refine ⟨_, false, ?_, Rep.edge (si := si) hc, by simp [Tree.get, hpre]⟩
        simp [getNode, hkey, bind, Except.bind, hpm, hpre, pure, Except.pure]
    | leaf h =>
      obtain ⟨rfl, hv⟩ := hw
      have : k = [] := List.length_eq_zero_iff.1 hk
      subst this
      exact ⟨.leaf, true, rfl, .leaf h, by simp [Tree.get, hkey, h]⟩

/-- Two strings, neither of which continues the other, split at a bit. -/
theorem exists_split : ∀ (p k : List Bool), p.length ≤ k.length → ¬ p <+: k →
    ∃ q b p' k', p = q ++ b :: p' ∧ k = q ++ (!b) :: k'
  | [], k, _, h => absurd (List.nil_prefix) h
  | a :: p, [], hl, _ => by simp at hl
  | a :: p, c :: k, hl, h => by
    by_cases hac : a = c
    · subst hac
      obtain ⟨q, b, p', k', rfl, rfl⟩ := exists_split p k (by simpa using hl)
        (fun hh => h (by simpa using hh))
      exact ⟨a :: q, b, p', k', rfl, rfl⟩
    · refine ⟨[], a, p, k, rfl, ?_⟩
      have : c = !a := by cases a <;> cases c <;> simp_all
      simp [this]

theorem commonLen_split (q : List Bool) (b : Bool) (p' k' : List Bool) :
    commonLen (q ++ (!b) :: k') (q ++ b :: p') = q.length := by
  induction q with
  | nil => cases b <;> simp [commonLen]
  | cons a q ih => simp [commonLen, ih]

/-- Put an edge in front of a tree unless the path is empty. -/
def Tree.edgeOr (p : List Bool) (t : Tree F) : Tree F := if p.isEmpty then t else .edge p t

theorem Tree.edgeOr_get (p : List Bool) (t : Tree F) (k : List Bool) :
    (Tree.edgeOr p t).get k = if p <+: k then t.get (k.drop p.length) else none := by
  unfold Tree.edgeOr
  split
  · rename_i h; simp at h; subst h; simp
  · simp [Tree.get]

theorem Tree.get_edge_append (q p : List Bool) (t : Tree F) (y : List Bool) :
    (Tree.edge (q ++ p) t).get (q ++ y) = (Tree.edge p t).get y := by
  simp only [Tree.get, List.prefix_append_right_inj, List.length_append, ← List.drop_drop, List.drop_left]

theorem Tree.edgeOr_wf {p : List Bool} {t : Tree F} {m : Nat} (h : t.Wf o m) (he : t.isEdge = false) :
    (Tree.edgeOr p t).Wf o (p.length + m) := by
  unfold Tree.edgeOr
  split
  · rename_i hp; simp at hp; subst hp; simpa using h
  · rename_i hp; exact ⟨m, rfl, by simpa using hp, he, h⟩

theorem Rep.edgeOr {pfx p c t L} (h : Rep o S lk (pfx ++ p) c t L) :
    Rep o S lk pfx (edgeOr pfx.length p c) (Tree.edgeOr p t) L := by
  unfold Verif.Trie.edgeOr Tree.edgeOr
  split
  · rename_i hp; simp at hp; subst hp; simpa using h
  · exact Rep.edge (si := none) h

theorem update_congr {key v} (hlk : ∀ q, lk' q = if q = key then some v else lk q) {pfx}
    (h : ¬ pfx <+: key) : ∀ s, lk' (pfx ++ s) = lk (pfx ++ s) := by
  intro s
  rw [hlk, if_neg]
  rintro rfl
  exact h ⟨s, rfl⟩

theorem not_prefix_other (pfx : List Bool) (b : Bool) (k : List Bool) :
    ¬ (pfx ++ [!b]) <+: (pfx ++ b :: k) := by
  rw [List.prefix_append_right_inj]
  cases b <;> simp

theorem splitEdge_ok {H n m : Nat} {pfx q : List Bool} {b : Bool} {p' k' : List Bool} {c : INode} {t : Tree F}
    {L : List Nat} {key : List Bool} {v : F} (hv : v ≠ o.zero)
    (hlk : ∀ q, lk' q = if q = key then some v else lk q)
    (hkey : key = pfx ++ (q ++ (!b) :: k'))
    (hr : Rep o S lk (pfx ++ (q ++ b :: p')) c t L) (hw : t.Wf o m) (he : t.isEdge = false)
    (hn : n = (q ++ b :: p').length + m) (hnH : pfx.length + n = H) (hk : (q ++ (!b) :: k').length = n) :
    ∃ node' t', splitEdge pfx.length (q ++ b :: p') c key = .ok node' ∧ Rep o S lk' pfx node' t' L ∧
      t'.Wf o n ∧
      (∀ x, t'.get x = if x = q ++ (!b) :: k' then some v
        else (Tree.edge (q ++ b :: p') t).get x) := by
  have hcommon : commonPath pfx.length (q ++ b :: p') key = q := by
    simp [commonPath, hkey, commonLen_split]
  simp only [List.length_append, List.length_cons] at hn hk
  have hlk1 : lk' (((pfx ++ q) ++ [!b]) ++ k') = some v := by
    rw [hlk, if_pos]; simp [hkey]
  have hnew : Rep o S lk' ((pfx ++ q) ++ [!b]) (edgeOr (pfx.length + q.length + 1) k' .leaf)
      (Tree.edgeOr k' (.leaf v)) [] := by
    have := Rep.edgeOr (o := o) (S := S) (pfx := (pfx ++ q) ++ [!b]) (p := k') (c := .leaf)
      (t := .leaf v) (L := []) (Rep.leaf hlk1)
    simpa [Nat.add_assoc] using this
  have hnp : ¬ ((pfx ++ q) ++ [b]) <+: key := by
    have := not_prefix_other (pfx ++ q) (!b) k'
    simpa [hkey] using this
  have hold0 : Rep o S lk' ((pfx ++ q) ++ [b] ++ p') c t L := by
    have : pfx ++ (q ++ b :: p') = (pfx ++ q) ++ [b] ++ p' := by simp
    rw [this] at hr
    refine hr.congr ?_
    intro s
    have := update_congr hlk hnp (p' ++ s)
    simpa using this
  have hold : Rep o S lk' ((pfx ++ q) ++ [b]) (edgeOr (pfx.length + q.length + 1) p' c)
      (Tree.edgeOr p' t) L := by
    have := Rep.edgeOr hold0
    simpa [Nat.add_assoc] using this
  have hwnew : (Tree.edgeOr k' (Tree.leaf v)).Wf o k'.length :=
    Tree.edgeOr_wf (m := 0) ⟨rfl, hv⟩ rfl
  have hwold : (Tree.edgeOr p' t).Wf o k'.length := by
    have := Tree.edgeOr_wf (p := p') hw he
    have e : p'.length + m = k'.length := by omega
    rwa [e] at this
  -- the key bit decides the side
  have hbit : key[pfx.length + q.length]? = some (!b) := by
    have := key_get (pfx ++ q) (!b) k'
    simp [hkey]
  have hcond : pfx.length + q.length + 1 ≤ key.length ∧ q.length + 1 ≤ (q ++ b :: p').length := by
    simp [hkey]; omega
  have hdropk : key.drop (pfx.length + q.length + 1) = k' := by
    have : key = (pfx ++ q ++ [!b]) ++ k' := by simp [hkey]
    rw [this, List.drop_left' (by simp; omega)]
  have hdropp : (q ++ b :: p').drop (q.length + 1) = p' := by
    have : q ++ b :: p' = (q ++ [b]) ++ p' := by simp
    rw [this, List.drop_left' (by simp)]
  cases b
  · -- the new leaf is on the right
    have hbin := Rep.binary (si := none) hold hnew
    refine ⟨_, _, ?_, by simpa using Rep.edgeOr hbin, ?_, ?_⟩
    · simp only [splitEdge, hcommon, hcond, and_self, if_true, hdropk, hdropp, hbit, Bool.not_false]
    · have := Tree.edgeOr_wf (p := q) (o := o) (m := k'.length + 1)
        (t := .bin (Tree.edgeOr p' t) (Tree.edgeOr k' (.leaf v))) ⟨_, rfl, hwold, hwnew⟩ rfl
      have e : n = q.length + (k'.length + 1) := by omega
      rwa [← e] at this
    · intro x
      rw [Tree.edgeOr_get]
      by_cases hx : q <+: x
      · obtain ⟨y, rfl⟩ := hx
        rw [Tree.get_edge_append]
        simp only [List.prefix_append, if_true, List.drop_left, List.append_cancel_left_eq]
        cases y with
        | nil => simp [Tree.get]
        | cons d y =>
          cases d
          · simp [Tree.get, Tree.edgeOr_get]
          · simp only [Tree.get, Tree.edgeOr_get, if_true]
            by_cases hky : y = k'
            · subst hky; simp [Tree.get]
            · simp [hky]
              intro hpre
              obtain ⟨s, rfl⟩ := hpre
              cases s with
              | nil => simp at hky
              | cons => simp [Tree.get]
      · rw [if_neg hx, if_neg]
        · simp only [Tree.get]
          rw [if_neg]
          intro h
          exact hx ((List.prefix_append _ _).trans h)
        · rintro rfl
          exact hx (List.prefix_append _ _)
  · have hbin := Rep.binary (si := none) hnew hold
    refine ⟨_, _, ?_, by simpa using Rep.edgeOr hbin, ?_, ?_⟩
    · simp only [splitEdge, hcommon, hcond, and_self, if_true, hdropk, hdropp, hbit, Bool.not_true]
    · have := Tree.edgeOr_wf (p := q) (o := o) (m := k'.length + 1)
        (t := .bin (Tree.edgeOr k' (.leaf v)) (Tree.edgeOr p' t)) ⟨_, rfl, hwnew, hwold⟩ rfl
      have e : n = q.length + (k'.length + 1) := by omega
      rwa [← e] at this
    · intro x
      rw [Tree.edgeOr_get]
      by_cases hx : q <+: x
      · obtain ⟨y, rfl⟩ := hx
        rw [Tree.get_edge_append]
        simp only [List.prefix_append, if_true, List.drop_left, List.append_cancel_left_eq]
        cases y with
        | nil => simp [Tree.get]
        | cons d y =>
          cases d
          · simp only [Tree.get, Tree.edgeOr_get, if_true]
            by_cases hky : y = k'
            · subst hky; simp [Tree.get]
            · simp [hky]
              intro hpre
              obtain ⟨s, rfl⟩ := hpre
              cases s with
              | nil => simp at hky
              | cons => simp [Tree.get]
          · simp [Tree.get, Tree.edgeOr_get]
      · rw [if_neg hx, if_neg]
        · simp only [Tree.get]
          rw [if_neg]
          intro h
          exact hx ((List.prefix_append _ _).trans h)
        · rintro rfl
          exact hx (List.prefix_append _ _)

theorem setNode_ok {H : Nat} {key : List Bool} {v : F} (hv : v ≠ o.zero)
    (hlk : ∀ q, lk' q = if q = key then some v else lk q) :
    ∀ fuel pfx n k node t L, Rep o S lk pfx node t L → t.Wf o n → pfx.length + n = H → k.length = n →
      key = pfx ++ k → need n node ≤ fuel →
      ∃ node' rem t' L', setNode S H key fuel pfx.length node = .ok (node', rem) ∧
        Rep o S lk' pfx node' t' L' ∧ t'.Wf o n ∧
        (∀ x, t'.get x = if x = k then some v else t.get x) ∧ L.Perm (rem ++ L') ∧
        (t.isEdge = false → t'.isEdge = false) ∧ node'.resolved = true := by
  intro fuel
  induction fuel with
  | zero => intro pfx n k node t L _ _ _ _ _ hf; simp [need] at hf
  | succ fuel ih =>
    intro pfx n k node t L hr hw hn hk hkey hf
    cases hr with
    | @unresolved _ i _ _ h =>
      obtain ⟨node', e, hr', hres⟩ := resolve_ok h hw hn
      obtain ⟨node'', rem, t', L', e2, h2⟩ := ih pfx n k node' t L hr' hw hn hk hkey (by
        rw [need_res hres]; simp [need, INode.resolved] at hf; omega)
      exact ⟨node'', rem, t', L', by simp [setNode, e, bind, Except.bind, e2], h2⟩
    | @binary _ si l r tl tr Ll Lr hl hrr =>
      obtain ⟨m, rfl, hwl, hwr⟩ := hw
      simp only [need, INode.resolved, if_true] at hf
      cases k with
      | nil => simp at hk
      | cons d k =>
        simp only [List.length_cons, Nat.add_right_cancel_iff] at hk
        cases d
        · obtain ⟨l', rem, t', L', e, hr', hw', hg, hL, _⟩ := ih (pfx ++ [false]) m k l tl Ll hl hwl
            (by simp; omega) hk (by simp [hkey]) (by have := need_le m l; omega)
          simp only [List.length_append, List.length_cons, List.length_nil, Nat.zero_add] at e
          have hrr' : Rep o S lk' (pfx ++ [true]) r tr Lr :=
            hrr.congr (update_congr hlk (by rw [hkey]; exact not_prefix_other pfx false k))
          refine ⟨_, rem, _, _, ?_, Rep.binary (si := si) hr' hrr', ⟨m, rfl, hw', hwr⟩, ?_, ?_,
            fun _ => rfl, rfl⟩
          · simp [setNode, hkey, bind, Except.bind, pure, Except.pure]
            rw [← hkey, e]
          · intro x
            cases x with
            | nil => simp [Tree.get]
            | cons d x => cases d <;> simp [Tree.get, hg]
          · perm_count hL
        · obtain ⟨l', rem, t', L', e, hr', hw', hg, hL, _⟩ := ih (pfx ++ [true]) m k r tr Lr hrr hwr
            (by simp; omega) hk (by simp [hkey]) (by have := need_le m r; omega)
          simp only [List.length_append, List.length_cons, List.length_nil, Nat.zero_add] at e
          have hl' : Rep o S lk' (pfx ++ [false]) l tl Ll :=
            hl.congr (update_congr hlk (by rw [hkey]; exact not_prefix_other pfx true k))
          refine ⟨_, rem, _, _, ?_, Rep.binary (si := si) hl' hr', ⟨m, rfl, hwl, hw'⟩, ?_, ?_,
            fun _ => rfl, rfl⟩
          · simp [setNode, hkey, bind, Except.bind, pure, Except.pure]
            rw [← hkey, e]
          · intro x
            cases x with
            | nil => simp [Tree.get]
            | cons d x => cases d <;> simp [Tree.get, hg]
          · perm_count hL
    | @edge _ si p c t L hc =>
      obtain ⟨m, rfl, hp, hce, hwc⟩ := hw
      have hpos := List.length_pos_iff.2 hp
      simp only [need, INode.resolved, if_true] at hf
      have hpm := pathMatches_eq pfx p k (by omega)
      by_cases hpre : p <+: k
      · obtain ⟨s, rfl⟩ := hpre
        simp only [List.length_append, Nat.add_left_cancel_iff] at hk
        obtain ⟨c', rem, t', L', e, hr', hw', hg, hL, he', _⟩ := ih (pfx ++ p) m s c t L hc hwc (by simp; omega) hk
          (by simp [hkey]) (by have := need_le m c; omega)
        simp only [List.length_append] at e
        refine ⟨_, rem, _, _, ?_, Rep.edge (si := si) hr', ⟨m, rfl, hp, he' hce, hw'⟩, ?_, ?_,
          fun h => by simp [Tree.isEdge] at h, rfl⟩
        · simp only [setNode, hkey, bind, Except.bind, hpm, pure, Except.pure]
          rw [← hkey, e]
          simp
        · intro x
          simp only [Tree.get]
          by_cases hx : p <+: x
          · obtain ⟨y, rfl⟩ := hx
            simp [hg]
          · rw [if_neg hx, if_neg hx, if_neg]
            rintro rfl
            exact hx (List.prefix_append _ _)
        · perm_count hL
      · obtain ⟨q, b, p', k', rfl, rfl⟩ := exists_split p k (by omega) hpre
        obtain ⟨node', t', e, hr', hw', hg⟩ := splitEdge_ok (n := (q ++ b :: p').length + m) hv hlk hkey hc hwc hce rfl hn hk
        refine ⟨node', si.toList, t', L, ?_, hr', hw', hg, List.Perm.refl _,
          fun h => by simp [Tree.isEdge] at h, ?_⟩
        · simp only [setNode, hkey, bind, Except.bind, hpm, pure, Except.pure]
          rw [← hkey, e]
          simp [hpre]
        · cases hr' with
          | unresolved h =>
            unfold splitEdge at e
            simp only at e
            split at e
            · split at e
              · simp only [edgeOr, Except.ok.injEq] at e; split at e <;> simp at e
              · simp only [edgeOr, Except.ok.injEq] at e; split at e <;> simp at e
              · simp at e
            · simp at e
          | _ => rfl
    | leaf h =>
      obtain ⟨rfl, hv'⟩ := hw
      have : k = [] := List.length_eq_zero_iff.1 hk
      subst this
      refine ⟨.leaf, [], .leaf v, [], rfl, .leaf (by rw [hlk, if_pos]; simp [hkey]), ⟨rfl, hv⟩, ?_,
        List.Perm.refl _, fun _ => rfl, rfl⟩
      intro x
      cases x <;> simp [Tree.get]

end Verif.Trie
