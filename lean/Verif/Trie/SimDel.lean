/-
Simulation lemma for the deletion of a leaf.
-/
import Verif.Trie.SimSet

namespace Verif.Trie

variable {F : Type} {o : FeltOps F} {S : Storage F} {lk : List Bool → Option F}

theorem Tree.get_edge_edge (p q : List Bool) (t : Tree F) (x : List Bool) :
    (Tree.edge (p ++ q) t).get x = (Tree.edge p (Tree.edge q t)).get x := by
  by_cases h : p <+: x
  · obtain ⟨y, rfl⟩ := h
    rw [Tree.get_edge_append]
    conv => rhs; rw [Tree.get]
    simp
  · simp only [Tree.get]
    rw [if_neg h, if_neg]
    intro hh
    exact h ((List.prefix_append _ _).trans hh)

theorem mergeEdges_eq {H h : Nat} {p : List Bool} {c c1 : INode}
    (e : (match c with
      | .unresolved i => resolve S H i (h + p.length)
      | other => Except.ok other) = Except.ok c1) :
    mergeEdges S H h p c = (match c1 with
      | .edge si _ p2 c2 => Except.ok (p ++ p2, c2, si.toList)
      | _ => Except.ok (p, c, [])) := by
  unfold mergeEdges
  cases c with
  | unresolved i => simp only at e; simp only [bind, Except.bind, e, pure, Except.pure]; cases c1 <;> rfl
  | binary => simp only [Except.ok.injEq] at e; subst e; rfl
  | edge => simp only [Except.ok.injEq] at e; subst e; rfl
  | leaf => simp only [Except.ok.injEq] at e; subst e; rfl

theorem mergeEdges_ok {H m : Nat} {pfx p : List Bool} {c : INode} {t : Tree F} {L : List Nat}
    (hp : p ≠ []) (hr : Rep o S lk (pfx ++ p) c t L) (hw : t.Wf o m)
    (hH : pfx.length + p.length + m = H) :
    ∃ p' c' rem t' L', mergeEdges S H pfx.length p c = .ok (p', c', rem) ∧
      (∀ si : Option Nat, Rep o S lk pfx (.edge si pfx.length p' c') t' (si.toList ++ L')) ∧
      t'.Wf o (p.length + m) ∧ (∀ x, t'.get x = (Tree.edge p t).get x) ∧ L.Perm (rem ++ L') := by
  -- the resolved child
  have hres : ∃ c1, (match c with
      | .unresolved i => resolve S H i (pfx.length + p.length)
      | other => Except.ok other) = Except.ok c1 ∧ Rep o S lk (pfx ++ p) c1 t L ∧ c1.resolved = true := by
    cases hr with
    | unresolved h =>
      have := resolve_ok h hw (by simpa using hH)
      simpa using this
    | binary hl hr => exact ⟨_, rfl, .binary hl hr, rfl⟩
    | edge h => exact ⟨_, rfl, .edge h, rfl⟩
    | leaf h => exact ⟨_, rfl, .leaf h, rfl⟩
  obtain ⟨c1, e1, hr1, hres1⟩ := hres
  have key := mergeEdges_eq (h := pfx.length) (p := p) e1
  cases hr1 with
  | unresolved => simp [INode.resolved] at hres1
  | @binary _ si l r tl tr Ll Lr hl hrr =>
    refine ⟨p, c, [], .edge p (.bin tl tr), _, by rw [key], fun si => Rep.edge hr,
      ⟨m, rfl, hp, rfl, hw⟩, fun _ => rfl, List.Perm.refl _⟩
  | leaf h =>
    refine ⟨p, c, [], _, _, by rw [key], fun si => Rep.edge hr,
      ⟨m, rfl, hp, rfl, hw⟩, fun _ => rfl, List.Perm.refl _⟩
  | @edge _ si p2 c2 t2 L2 h2 =>
    obtain ⟨m2, rfl, hp2, he2, hw2⟩ := hw
    refine ⟨p ++ p2, c2, si.toList, .edge (p ++ p2) t2, L2, by rw [key],
      fun si => Rep.edge (by simpa using h2), ⟨m2, by simp; omega, by simp [hp], he2, hw2⟩,
      fun x => Tree.get_edge_edge _ _ _ _, List.Perm.refl _⟩

/-- What a deletion result means for a subtree `t` with indices `L`. -/
def DelOk (o : FeltOps F) (S : Storage F) (lk : List Bool → Option F) (pfx : List Bool) (n : Nat)
    (k : List Bool) (t : Tree F) (L : List Nat) : DelRes → Prop
  | .absent node' => t.get k = none ∧ Rep o S lk pfx node' t L ∧ node'.resolved = true
  | .vanish idxs => (∃ v, t.get k = some v) ∧ (∀ x, x ≠ k → t.get x = none) ∧ L.Perm idxs
  | .newEdge h p c rem idxs => (∃ v, t.get k = some v) ∧ ∃ t' L', h = pfx.length ∧ t.isEdge = false ∧
      Rep o S lk pfx (.edge none h p c) t' L' ∧ t'.Wf o n ∧
      (∀ x, t'.get x = if x = k then none else t.get x) ∧ L.Perm (rem ++ idxs ++ L')
  | .done node' rem idxs => (∃ v, t.get k = some v) ∧ ∃ t' L', Rep o S lk pfx node' t' L' ∧ t'.Wf o n ∧
      (∀ x, t'.get x = if x = k then none else t.get x) ∧ L.Perm (rem ++ idxs ++ L') ∧
      (t.isEdge = false → t'.isEdge = false) ∧ node'.resolved = true

theorem delNode_ok {H : Nat} {key : List Bool} :
    ∀ fuel pfx n k node t L, Rep o S lk pfx node t L → t.Wf o n → pfx.length + n = H → k.length = n →
      key = pfx ++ k → need n node ≤ fuel →
      ∃ res, delNode S H key fuel pfx.length node = .ok res ∧ DelOk o S lk pfx n k t L res := by
  intro fuel
  induction fuel with
  | zero => intro pfx n k node t L _ _ _ _ _ hf; simp [need] at hf
  | succ fuel ih =>
    intro pfx n k node t L hr hw hn hk hkey hf
    cases hr with
    | @unresolved _ i _ _ h =>
      obtain ⟨node', e, hr', hres⟩ := resolve_ok h hw hn
      obtain ⟨res, e2, h2⟩ := ih pfx n k node' t L hr' hw hn hk hkey (by
        rw [need_res hres]; simp [need, INode.resolved] at hf; omega)
      exact ⟨res, by simp [delNode, e, bind, Except.bind, e2], h2⟩
    | @binary _ si l r tl tr Ll Lr hl hrr =>
      obtain ⟨m, rfl, hwl, hwr⟩ := hw
      simp only [need, INode.resolved, if_true] at hf
      cases k with
      | nil => simp at hk
      | cons d k =>
        simp only [List.length_cons, Nat.add_right_cancel_iff] at hk
        have hbit : key[pfx.length]? = some d := by rw [hkey]; exact key_get _ _ _
        cases d
        · obtain ⟨res, e, hd⟩ := ih (pfx ++ [false]) m k l tl Ll hl hwl
            (by simp; omega) hk (by simp [hkey]) (by have := need_le m l; omega)
          simp only [List.length_append, List.length_cons, List.length_nil, Nat.zero_add] at e
          cases res with
          | absent c' =>
            obtain ⟨hg, hr', _⟩ := hd
            refine ⟨.absent (.binary si pfx.length c' r), ?_, by simpa [Tree.get] using hg,
              Rep.binary (si := si) hr' hrr, rfl⟩
            simp [delNode, hbit, bind, Except.bind, e, pure, Except.pure]
          | vanish idxs =>
            obtain ⟨⟨v, hv⟩, hg, hL⟩ := hd
            obtain ⟨p', c', rem, t', L', em, hr', hw', hg', hL'⟩ :=
              mergeEdges_ok (H := H) (p := [true]) (by simp) hrr hwr (by simp; omega)
            refine ⟨.newEdge pfx.length p' c' (rem ++ si.toList) idxs, ?_, ⟨v, by simpa [Tree.get] using hv⟩,
              t', L', rfl, rfl, by simpa using hr' none, by simpa [Nat.add_comm] using hw', ?_, ?_⟩
            · simp [delNode, hbit, bind, Except.bind, e, pure, Except.pure, em]
            · intro x
              rw [hg']
              cases x with
              | nil => simp [Tree.get]
              | cons d x =>
                cases d
                · simp only [Tree.get, List.cons.injEq, true_and]
                  by_cases hx : x = k
                  · simp [hx]
                  · simp [hx, hg x hx]
                · simp [Tree.get]
            · rw [List.perm_iff_count] at *
              intro a
              have h1 := hL a
              have h2 := hL' a
              simp only [List.count_append] at *
              omega
          | newEdge h' p' c' rem idxs =>
            obtain ⟨⟨v, hv⟩, t', L', rfl, _, hr', hw', hg, hL⟩ := hd
            refine ⟨.done (.binary si pfx.length (.edge none (pfx ++ [false]).length p' c') r) rem idxs, ?_,
              ⟨v, by simpa [Tree.get] using hv⟩, _, _, Rep.binary (si := si) hr' hrr, ⟨m, rfl, hw', hwr⟩, ?_, ?_,
              fun _ => rfl, rfl⟩
            · simp [delNode, hbit, bind, Except.bind, e, pure, Except.pure]
            · intro x
              cases x with
              | nil => simp [Tree.get]
              | cons d x => cases d <;> simp [Tree.get, hg]
            · perm_count hL
          | done c' rem idxs =>
            obtain ⟨⟨v, hv⟩, t', L', hr', hw', hg, hL, _⟩ := hd
            refine ⟨.done (.binary si pfx.length c' r) rem idxs, ?_,
              ⟨v, by simpa [Tree.get] using hv⟩, _, _, Rep.binary (si := si) hr' hrr, ⟨m, rfl, hw', hwr⟩, ?_, ?_,
              fun _ => rfl, rfl⟩
            · simp [delNode, hbit, bind, Except.bind, e, pure, Except.pure]
            · intro x
              cases x with
              | nil => simp [Tree.get]
              | cons d x => cases d <;> simp [Tree.get, hg]
            · perm_count hL
        · obtain ⟨res, e, hd⟩ := ih (pfx ++ [true]) m k r tr Lr hrr hwr
            (by simp; omega) hk (by simp [hkey]) (by have := need_le m r; omega)
          simp only [List.length_append, List.length_cons, List.length_nil, Nat.zero_add] at e
          cases res with
          | absent c' =>
            obtain ⟨hg, hr', _⟩ := hd
            refine ⟨.absent (.binary si pfx.length l c'), ?_, by simpa [Tree.get] using hg,
              Rep.binary (si := si) hl hr', rfl⟩
            simp [delNode, hbit, bind, Except.bind, e, pure, Except.pure]
          | vanish idxs =>
            obtain ⟨⟨v, hv⟩, hg, hL⟩ := hd
            obtain ⟨p', c', rem, t', L', em, hr', hw', hg', hL'⟩ :=
              mergeEdges_ok (H := H) (p := [false]) (by simp) hl hwl (by simp; omega)
            refine ⟨.newEdge pfx.length p' c' (rem ++ si.toList) idxs, ?_, ⟨v, by simpa [Tree.get] using hv⟩,
              t', L', rfl, rfl, by simpa using hr' none, by simpa [Nat.add_comm] using hw', ?_, ?_⟩
            · simp [delNode, hbit, bind, Except.bind, e, pure, Except.pure, em]
            · intro x
              rw [hg']
              cases x with
              | nil => simp [Tree.get]
              | cons d x =>
                cases d
                · simp [Tree.get]
                · simp only [Tree.get, List.cons.injEq, true_and]
                  by_cases hx : x = k
                  · simp [hx]
                  · simp [hx, hg x hx]
            · rw [List.perm_iff_count] at *
              intro a
              have h1 := hL a
              have h2 := hL' a
              simp only [List.count_append] at *
              omega
          | newEdge h' p' c' rem idxs =>
            obtain ⟨⟨v, hv⟩, t', L', rfl, _, hr', hw', hg, hL⟩ := hd
            refine ⟨.done (.binary si pfx.length l (.edge none (pfx ++ [true]).length p' c')) rem idxs, ?_,
              ⟨v, by simpa [Tree.get] using hv⟩, _, _, Rep.binary (si := si) hl hr', ⟨m, rfl, hwl, hw'⟩, ?_, ?_,
              fun _ => rfl, rfl⟩
            · simp [delNode, hbit, bind, Except.bind, e, pure, Except.pure]
            · intro x
              cases x with
              | nil => simp [Tree.get]
              | cons d x => cases d <;> simp [Tree.get, hg]
            · perm_count hL
          | done c' rem idxs =>
            obtain ⟨⟨v, hv⟩, t', L', hr', hw', hg, hL, _⟩ := hd
            refine ⟨.done (.binary si pfx.length l c') rem idxs, ?_,
              ⟨v, by simpa [Tree.get] using hv⟩, _, _, Rep.binary (si := si) hl hr', ⟨m, rfl, hwl, hw'⟩, ?_, ?_,
              fun _ => rfl, rfl⟩
            · simp [delNode, hbit, bind, Except.bind, e, pure, Except.pure]
            · intro x
              cases x with
              | nil => simp [Tree.get]
              | cons d x => cases d <;> simp [Tree.get, hg]
            · perm_count hL
    | @edge _ si p c t L hc =>
      obtain ⟨m, rfl, hp, hce, hwc⟩ := hw
      have hpos := List.length_pos_iff.2 hp
      simp only [need, INode.resolved, if_true] at hf
      have hpm : pathMatches pfx.length p key = .ok (decide (p <+: k)) := by
        rw [hkey]; exact pathMatches_eq pfx p k (by omega)
      by_cases hpre : p <+: k
      · obtain ⟨s, rfl⟩ := hpre
        simp only [List.length_append, Nat.add_left_cancel_iff] at hk
        obtain ⟨res, e, hd⟩ := ih (pfx ++ p) m s c t L hc hwc (by simp; omega) hk
          (by simp [hkey]) (by have := need_le m c; omega)
        simp only [List.length_append] at e
        have hget : ∀ {t' : Tree F}, (∀ x, t'.get x = if x = s then none else t.get x) →
            ∀ x, (Tree.edge p t').get x = if x = p ++ s then none else (Tree.edge p t).get x := by
          intro t' hg x
          simp only [Tree.get]
          by_cases hx : p <+: x
          · obtain ⟨y, rfl⟩ := hx
            simp [hg]
          · rw [if_neg hx, if_neg hx]; simp
        cases res with
        | absent c' =>
          obtain ⟨hg, hr', _⟩ := hd
          refine ⟨.absent (.edge si pfx.length p c'), ?_, by simpa [Tree.get] using hg, Rep.edge (si := si) hr', rfl⟩
          simp [delNode, bind, Except.bind, e, pure, Except.pure, hpm]
        | vanish idxs =>
          obtain ⟨⟨v, hv⟩, hg, hL⟩ := hd
          refine ⟨.vanish (idxs ++ si.toList), ?_, ⟨v, by simpa [Tree.get] using hv⟩, ?_, ?_⟩
          · simp [delNode, bind, Except.bind, e, pure, Except.pure, hpm]
          · intro x hx
            simp only [Tree.get]
            split
            · rename_i hpx
              obtain ⟨y, rfl⟩ := hpx
              rw [List.drop_left]
              exact hg y (fun h => hx (by rw [h]))
            · rfl
          · perm_count hL
        | newEdge h' p' c' rem idxs =>
          obtain ⟨⟨v, hv⟩, t', L', rfl, _, hr', hw', hg, hL⟩ := hd
          obtain ⟨p2, c2, rem2, t2, L2, em, hr2, hw2, hg2, hL2⟩ :=
            mergeEdges_ok (H := H) hp hr' hw' (by omega)
          refine ⟨.done (.edge si pfx.length p2 c2) (rem ++ rem2) idxs, ?_,
            ⟨v, by simpa [Tree.get] using hv⟩, t2, _, hr2 si, hw2, ?_, ?_,
            fun h => by simp [Tree.isEdge] at h, rfl⟩
          · simp only [List.length_append] at em
            simp [delNode, bind, Except.bind, e, pure, Except.pure, hpm, em]
          · intro x
            rw [hg2]
            exact hget hg x
          · rw [List.perm_iff_count] at *
            intro a
            have h1 := hL a
            have h2 := hL2 a
            simp only [List.count_append] at *
            omega
        | done c' rem idxs =>
          obtain ⟨⟨v, hv⟩, t', L', hr', hw', hg, hL, he, _⟩ := hd
          refine ⟨.done (.edge si pfx.length p c') rem idxs, ?_,
            ⟨v, by simpa [Tree.get] using hv⟩, _, _, Rep.edge (si := si) hr',
            ⟨m, rfl, hp, he hce, hw'⟩, hget hg, ?_, fun h => by simp [Tree.isEdge] at h, rfl⟩
          · simp [delNode, bind, Except.bind, e, pure, Except.pure, hpm]
          · perm_count hL
      · refine ⟨.absent (.edge si pfx.length p c), ?_, by simp [Tree.get, hpre], Rep.edge (si := si) hc, rfl⟩
        simp [delNode, bind, Except.bind, hpm, hpre, pure, Except.pure]
    | leaf h =>
      obtain ⟨rfl, hv'⟩ := hw
      have : k = [] := List.length_eq_zero_iff.1 hk
      subst this
      refine ⟨.vanish [], rfl, ⟨_, rfl⟩, ?_, List.Perm.refl _⟩
      intro x hx
      cases x with
      | nil => simp at hx
      | cons => rfl

end Verif.Trie
