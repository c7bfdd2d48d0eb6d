import Verif.Exec.Node
import Verif.Exec.Lemmas

namespace Verif.Exec
open Spec

/-- The decided blocks are those from the last confirmation up to `top`. -/
structure Inv (agreed : Nat → Blk) (s : Node) (top : Nat) : Prop where
  blocks : s.blocks = (List.range s.blocks.length).map agreed
  le1 : s.confirmed ≤ s.blocks.length
  le2 : s.blocks.length ≤ top
  decided : s.decided = (List.range' s.confirmed (top - s.confirmed)).map fun m => (m, agreed m)

theorem Inv.mem {agreed : Nat → Blk} {s : Node} {top : Nat} (h : Inv agreed s top) {m : Nat}
    {b : Blk} : (m, b) ∈ s.decided ↔ s.confirmed ≤ m ∧ m < top ∧ b = agreed m := by
  have h1 := h.le1
  have h2 := h.le2
  rw [h.decided, List.mem_map]
  constructor
  · rintro ⟨x, hx, e⟩
    cases e
    rw [List.mem_range'_1] at hx
    exact ⟨hx.1, by omega, rfl⟩
  · rintro ⟨a, c, rfl⟩
    exact ⟨m, List.mem_range'_1.mpr ⟨a, by omega⟩, rfl⟩

theorem filter_map_range' (agreed : Nat → Blk) (a k : Nat) (P : Nat → Bool) :
    ((List.range' a k).map fun m => (m, agreed m)).filter (fun p => P p.1) =
      ((List.range' a k).filter P).map fun m => (m, agreed m) := by
  rw [List.filter_map]
  rfl

theorem inv_reach {agreed : Nat → Blk} {s : Node} (r : Reach agreed s) :
    ∃ top, Inv agreed s top := by
  induction r with
  | fresh k => exact ⟨k, by simp [Node.fresh], by simp [Node.fresh], by simp [Node.fresh],
      by simp [Node.fresh]⟩
  | @step s t r h ih =>
    obtain ⟨top, hi⟩ := ih
    have h1 := hi.le1
    have h2 := hi.le2
    cases h with
    | decide m fresh new parent =>
      have hm : m = top := by
        have hge : ¬ (s.confirmed ≤ m ∧ m < top) := by
          rintro ⟨a, c⟩
          exact fresh (agreed m) (hi.mem.mpr ⟨a, c, rfl⟩)
        rcases parent with rfl | h | ⟨b, hb⟩
        · omega
        · omega
        · have := hi.mem.mp hb
          omega
      subst hm
      refine ⟨m + 1, ⟨hi.blocks, h1, by show s.blocks.length ≤ _; omega, ?_⟩⟩
      show insertDecided s.decided m (agreed m) = _
      unfold insertDecided
      have e1 : s.decided.filter (fun p => decide (p.1 < m)) = s.decided := by
        rw [List.filter_eq_self]
        rintro ⟨x, b⟩ hx
        have := hi.mem.mp hx
        exact decide_eq_true this.2.1
      have e2 : s.decided.filter (fun p => decide (m < p.1)) = [] := by
        rw [List.filter_eq_nil_iff]
        rintro ⟨x, b⟩ hx
        have := hi.mem.mp hx
        simp only [decide_eq_true_eq]
        show ¬ m < x
        omega
      rw [e1, e2, hi.decided]
      show _ = (List.range' s.confirmed (m + 1 - s.confirmed)).map _
      have : m + 1 - s.confirmed = (m - s.confirmed) + 1 := by omega
      rw [this, List.range'_1_concat, List.map_append]
      have : s.confirmed + (m - s.confirmed) = m := by omega
      rw [this]
      rfl
    | commit b h =>
      have hb := hi.mem.mp h
      refine ⟨top, ⟨?_, by show s.confirmed ≤ _; simp; omega, by simp; omega, hi.decided⟩⟩
      simp only [List.length_append, List.length_cons, List.length_nil, Nat.zero_add]
      rw [List.range_succ, List.map_append, ← hi.blocks, hb.2.2]
      rfl
    | confirm h =>
      refine ⟨top, ⟨hi.blocks, by show s.confirmed + 1 ≤ s.blocks.length; omega, h2, ?_⟩⟩
      show removeDecided s.decided s.confirmed = (List.range' (s.confirmed + 1) _).map _
      have hlt : s.confirmed < top := by omega
      unfold removeDecided
      rw [hi.decided, filter_map_range' agreed s.confirmed _ (fun m => decide (m ≠ s.confirmed))]
      have : top - s.confirmed = (top - (s.confirmed + 1)) + 1 := by omega
      rw [this, List.range'_succ]
      have e : List.filter (fun m => decide (m ≠ s.confirmed))
          (List.range' (s.confirmed + 1) (top - (s.confirmed + 1))) =
          List.range' (s.confirmed + 1) (top - (s.confirmed + 1)) := by
        rw [List.filter_eq_self]
        intro m hm
        rw [List.mem_range'_1] at hm
        exact decide_eq_true (by omega)
      rw [List.filter_cons_of_neg (by simp), e]
    | start n h => exact ⟨top, ⟨hi.blocks, h1, h2, hi.decided⟩⟩
    | drop => exact ⟨top, ⟨hi.blocks, h1, h2, hi.decided⟩⟩

/-- The first blocks agreed on. -/
def chainTo (agreed : Nat → Blk) (k : Nat) : List Blk := (List.range k).map agreed

theorem chainTo_take (agreed : Nat → Blk) {k n : Nat} (h : n ≤ k) :
    (chainTo agreed k).take n = chainTo agreed n := by
  unfold chainTo
  rw [← List.map_take, List.take_range, Nat.min_eq_left h]

theorem onTop_of_inv {agreed : Nat → Blk} {s : Node} {top : Nat} (hi : Inv agreed s top) {n : Nat}
    (hnt : n < top) {snap : List Blk} (hs : snap = chainTo agreed snap.length)
    (hl : snap.length ≤ top) (hc : s.confirmed ≤ snap.length)
    (defs : Nat → Option (Nat × Option Nat)) :
    OnTop (chainTo agreed top) n { blocks := snap, defs } s.decided := by
  have h1 := hi.le1
  have h2 := hi.le2
  constructor
  · simpa [chainTo] using hnt
  · show snap = (chainTo agreed top).take snap.length
    rw [chainTo_take agreed hl]
    exact hs
  · rw [hi.decided, List.pairwise_map]
    exact List.pairwise_lt_range'
  · rintro ⟨m, b⟩ hm
    have := hi.mem.mp hm
    show (chainTo agreed top)[m]? = some b
    unfold chainTo
    rw [List.getElem?_map, List.getElem?_range (by omega), this.2.2]
    rfl
  · intro m hm
    show m < snap.length ∨ _
    by_cases h : m < snap.length
    · exact .inl h
    · exact .inr ⟨agreed m, hi.mem.mpr ⟨by omega, by omega, rfl⟩⟩
  · rintro ⟨x, b⟩ hx m hlt hle
    have hx' := hi.mem.mp hx
    have : x < m := hlt
    exact ⟨agreed m, hi.mem.mpr ⟨by omega, by omega, rfl⟩⟩

/-- What the executor of a proposal was started on stays part of the chain. -/
structure RInv (agreed : Nat → Blk) (s : Node) (n : Nat) (snap : List Blk) : Prop where
  first : snap = chainTo agreed snap.length
  short : snap.length ≤ s.blocks.length
  known : n < s.confirmed ∨ n < s.blocks.length ∨ ∃ b, (n, b) ∈ s.decided

theorem inv_reader {agreed : Nat → Blk} {s : Node} (r : Reach agreed s) :
    ∀ n snap, s.reader = some (n, snap) → RInv agreed s n snap := by
  induction r with
  | fresh k => intro n snap h; cases h
  | @step s t r h ih =>
    obtain ⟨top, hi⟩ := inv_reach r
    have h1 := hi.le1
    have h2 := hi.le2
    intro n snap hr
    cases h with
    | decide m fresh new parent =>
      obtain ⟨a, b, c⟩ := ih n snap hr
      refine ⟨a, b, ?_⟩
      rcases c with c | c | ⟨x, hx⟩
      · exact .inl c
      · exact .inr (.inl c)
      · refine .inr (.inr ⟨x, ?_⟩)
        show (n, x) ∈ insertDecided s.decided m (agreed m)
        unfold insertDecided
        rcases Nat.lt_trichotomy n m with hl | hl | hl
        · exact List.mem_append_left _ (List.mem_filter.mpr ⟨hx, decide_eq_true hl⟩)
        · exact absurd (hl ▸ hx) (fresh x)
        · exact List.mem_append_right _ (List.mem_cons_of_mem _
            (List.mem_filter.mpr ⟨hx, decide_eq_true hl⟩))
    | commit b hb =>
      obtain ⟨a, b', c⟩ := ih n snap hr
      refine ⟨a, by simp; omega, ?_⟩
      rcases c with c | c | ⟨x, hx⟩
      · exact .inl c
      · exact .inr (.inl (by simp; omega))
      · exact .inr (.inr ⟨x, hx⟩)
    | confirm hlt =>
      obtain ⟨a, b', c⟩ := ih n snap hr
      refine ⟨a, b', ?_⟩
      rcases c with c | c | ⟨x, hx⟩
      · exact .inl (by show n < s.confirmed + 1; omega)
      · exact .inr (.inl c)
      · by_cases hn : n = s.confirmed
        · exact .inl (by show n < s.confirmed + 1; omega)
        · exact .inr (.inr ⟨x, List.mem_filter.mpr ⟨hx, decide_eq_true hn⟩⟩)
    | start m hm =>
      cases hr
      exact ⟨hi.blocks, Nat.le_refl _, .inr hm⟩
    | drop => cases hr

/-- Reads of a running execution, as long as no confirmation for a block that is newer than its
database transaction has been processed. -/
theorem reader_onTop {agreed : Nat → Blk} {s : Node} (r : Reach agreed s) {n : Nat}
    {snap : List Blk} (hr : s.reader = some (n, snap)) (hc : s.confirmed ≤ snap.length)
    (defs : Nat → Option (Nat × Option Nat)) :
    ∃ top, n < top ∧ OnTop (chainTo agreed top) n { blocks := snap, defs } s.decided := by
  obtain ⟨top, hi⟩ := inv_reach r
  obtain ⟨a, b, c⟩ := inv_reader r n snap hr
  have h1 := hi.le1
  have h2 := hi.le2
  have hnt : n < top := by
    rcases c with c | c | ⟨x, hx⟩
    · omega
    · omega
    · exact (hi.mem.mp hx).2.1
  exact ⟨top, hnt, onTop_of_inv hi hnt a (by omega) hc defs⟩

/-! ### Reads that stop at the first block touching a contract -/

theorem decided_unique {d : Decided} (hd : d.Pairwise (fun p q => p.1 < q.1)) {p q : Nat × Blk}
    (hp : p ∈ d) (hq : q ∈ d) (h : p.1 = q.1) : p = q := by
  induction d with
  | nil => cases hp
  | cons x d ih =>
    rw [List.pairwise_cons] at hd
    rcases List.mem_cons.mp hp with hp | hp
    · rcases List.mem_cons.mp hq with hq | hq
      · rw [hp, hq]
      · have := hd.1 q hq
        rw [hp] at h
        omega
    · rcases List.mem_cons.mp hq with hq | hq
      · have := hd.1 p hp
        rw [hq] at h
        omega
      · exact ih hd.2 hp hq

theorem decided_some_of {α : Type} {d : Decided} (hd : d.Pairwise (fun p q => p.1 < q.1)) (n : Nat)
    (f : Nat × Blk → Option α) {p : Nat × Blk} {v : α} (hp : p ∈ d) (hle : p.1 ≤ n)
    (hv : f p = some v) (hn : ∀ q ∈ d, p.1 < q.1 → q.1 ≤ n → f q = none) :
    (revBlocks d n).findSome? f = some v := by
  cases e : (revBlocks d n).findSome? f with
  | none =>
    have := List.findSome?_eq_none_iff.mp e p (mem_revBlocks.mpr ⟨hp, hle⟩)
    rw [hv] at this
    cases this
  | some w =>
    obtain ⟨q, hq, hqn, hw, hqs⟩ := decided_some hd n f w e
    rcases Nat.lt_trichotomy p.1 q.1 with h | h | h
    · rw [hn q hq h hqn] at hw; cases hw
    · have := decided_unique hd hp hq h
      subst this
      rw [hv] at hw
      rw [hw]
    · rw [hqs p hp h hle] at hv; cases hv

theorem masked_eq {d : Decided} (hd : d.Pairwise (fun p q => p.1 < q.1)) (n a : Nat)
    (g : CU → Option Nat)
    (hm : ∀ p ∈ d, p.1 ≤ n → ∀ u, p.2.contracts.lookup a = some u → g u = none →
      ∀ q ∈ d, q.1 < p.1 → (q.2.contracts.lookup a).bind g = none) :
    (findContractUpdate (revBlocks d n) a).bind g =
      (revBlocks d n).findSome? fun p => (p.2.contracts.lookup a).bind g := by
  unfold findContractUpdate
  cases e : (revBlocks d n).findSome? fun p => p.2.contracts.lookup a with
  | none =>
    rw [Option.bind_none]
    symm
    rw [List.findSome?_eq_none_iff] at e ⊢
    intro p hp
    rw [e p hp]; rfl
  | some u =>
    obtain ⟨p, hp, hle, hu, hn⟩ := decided_some hd n _ u e
    rw [Option.bind_some]
    cases hg : g u with
    | some v =>
      symm
      refine decided_some_of hd n _ hp hle (by rw [hu]; exact hg) ?_
      intro q hq h1 h2
      rw [hn q hq h1 h2]; rfl
    | none =>
      symm
      rw [List.findSome?_eq_none_iff]
      intro q hq
      obtain ⟨hq, hqn⟩ := mem_revBlocks.mp hq
      rcases Nat.lt_trichotomy p.1 q.1 with h | h | h
      · rw [hn q hq h hqn]; rfl
      · have := decided_unique hd hp hq h
        subst this
        rw [hu]; exact hg
      · exact hm p hp hle u hu hg q hq h

theorem masked_none {d : Decided} (hd : d.Pairwise (fun p q => p.1 < q.1)) (n a : Nat)
    (g : CU → Option Nat) {p : Nat × Blk} (hp : p ∈ d) (hle : p.1 ≤ n) {u : CU}
    (hu : p.2.contracts.lookup a = some u) (hg : g u = none)
    (hl : ∀ q ∈ d, p.1 < q.1 → q.1 ≤ n → q.2.contracts.lookup a = none) :
    (findContractUpdate (revBlocks d n) a).bind g = none := by
  unfold findContractUpdate
  rw [decided_some_of hd n _ hp hle hu hl]
  exact hg

end Verif.Exec
