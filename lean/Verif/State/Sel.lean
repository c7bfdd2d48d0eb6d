import Verif.State.Tab
/-
Rows of a table selected by key, and how the statements of the model change them.
-/
namespace Verif.State
open Verif.Db

/-- The rows whose key satisfies `p`. -/
def sel {κ α : Type} (p : κ → Prop) [DecidablePred p] (rows : List (Row κ α)) : List (Nat × α) :=
  rows.filterMap fun r => if p r.key then some (r.block, r.val) else none

variable {κ α : Type} {p : κ → Prop} [DecidablePred p]

theorem mem_sel {rows : List (Row κ α)} {x : Nat × α} :
    x ∈ sel p rows ↔ ∃ r ∈ rows, p r.key ∧ x = (r.block, r.val) := by
  unfold sel
  rw [List.mem_filterMap]
  constructor
  · rintro ⟨r, hr, h⟩
    split at h
    · rename_i hp
      cases h
      exact ⟨r, hr, hp, rfl⟩
    · simp at h
  · rintro ⟨r, hr, hp, rfl⟩
    exact ⟨r, hr, by simp [hp]⟩

theorem sel_append (rows rows' : List (Row κ α)) : sel p (rows ++ rows') = sel p rows ++ sel p rows' := by
  simp [sel, List.filterMap_append]

theorem sel_single (r : Row κ α) : sel p [r] = if p r.key then [(r.block, r.val)] else [] := by
  unfold sel
  split <;> simp_all

/-- A filter that agrees on the selected rows with a filter on block and value. -/
theorem sel_filter (rows : List (Row κ α)) (q : Row κ α → Bool) (q' : Nat × α → Bool)
    (h : ∀ r ∈ rows, p r.key → q r = q' (r.block, r.val)) : sel p (rows.filter q) = (sel p rows).filter q' := by
  induction rows with
  | nil => rfl
  | cons r rs ih =>
    have ih := ih fun r hr => h r (List.mem_cons_of_mem _ hr)
    have hr := h r (by simp)
    unfold sel at *
    by_cases hp : p r.key
    · have hr := hr hp
      by_cases hq : q r
      · rw [hq] at hr
        simp [hq, hp, ih, ← hr]
      · simp only [Bool.not_eq_true] at hq
        rw [hq] at hr
        simp [hq, hp, ih, ← hr]
    · by_cases hq : q r
      · simp [hq, hp, ih]
      · simp [hq, hp, ih]

theorem sel_delBlock (rows : List (Row κ α)) (n : Nat) : sel p (delBlock rows n) = (sel p rows).filter fun r => r.1 != n :=
  sel_filter rows _ _ fun _ _ _ => rfl

theorem sel_congr {p' : κ → Prop} [DecidablePred p'] {rows : List (Row κ α)}
    (h : ∀ r ∈ rows, p r.key ↔ p' r.key) : sel p rows = sel p' rows := by
  unfold sel
  induction rows with
  | nil => rfl
  | cons r rs ih =>
    have e : (if p r.key then some (r.block, r.val) else none) = if p' r.key then some (r.block, r.val) else none := by
      simp only [h r (by simp)]
    rw [List.filterMap_cons, List.filterMap_cons, e, ih fun r hr => h r (List.mem_cons_of_mem _ hr)]

/-! ### pruning -/

theorem delKeyBlocks_eq [DecidableEq κ] (k : κ) (blocks : List Nat) (rows : List (Row κ α)) :
    delKeyBlocks k rows blocks = rows.filter fun r => !(decide (r.key = k) && decide (r.block ∈ blocks)) := by
  unfold delKeyBlocks
  induction blocks generalizing rows with
  | nil =>
    rw [List.foldl_nil, List.filter_eq_self.2]
    simp
  | cons b bs ih =>
    rw [List.foldl_cons, ih, List.filter_filter]
    apply List.filter_congr
    intro r _
    by_cases h1 : r.key = k <;> by_cases h2 : r.block = b <;> simp [h1, h2]

theorem pruneStep_eq [DecidableEq κ] (k : κ) (kept : Nat) (rows : List (Row κ α)) :
    delKeyBlocks k rows ((rows.filter fun r => decide (r.key = k) && decide (r.block < kept)).map (·.block)) =
      rows.filter fun r => !(decide (r.key = k) && decide (r.block < kept)) := by
  rw [delKeyBlocks_eq]
  apply List.filter_congr
  intro r hr
  congr 1
  rw [Bool.eq_iff_iff]
  simp only [Bool.and_eq_true, decide_eq_true_eq, List.mem_map, List.mem_filter]
  constructor
  · rintro ⟨h1, s, ⟨_, _, h2⟩, e⟩
    exact ⟨h1, by omega⟩
  · rintro ⟨h1, h2⟩
    exact ⟨h1, r, ⟨hr, h1, h2⟩, rfl⟩

theorem pruneTable_eq [DecidableEq κ] (rows : List (Row κ α)) (kept : Nat) :
    pruneTable rows kept =
      rows.filter fun r => !(decide (r.block < kept) && rows.any fun s => s.block == kept && decide (s.key = r.key)) := by
  have gen : ∀ (ks : List κ) (rs : List (Row κ α)),
      ks.foldl (fun rows k => delKeyBlocks k rows
        ((rows.filter fun r => decide (r.key = k) && decide (r.block < kept)).map (·.block))) rs =
      rs.filter fun r => !(decide (r.block < kept) && decide (r.key ∈ ks)) := by
    intro ks
    induction ks with
    | nil =>
      intro rs
      rw [List.foldl_nil, List.filter_eq_self.2]
      simp
    | cons k ks ih =>
      intro rs
      rw [List.foldl_cons, pruneStep_eq, ih, List.filter_filter]
      apply List.filter_congr
      intro r _
      by_cases h1 : r.key = k <;> by_cases h2 : r.block < kept <;> simp [h1, h2]
  unfold pruneTable
  rw [gen]
  apply List.filter_congr
  intro r _
  congr 2
  rw [Bool.eq_iff_iff]
  simp only [decide_eq_true_eq, List.mem_map, List.mem_filter, beq_iff_eq, List.any_eq_true, Bool.and_eq_true]
  constructor
  · rintro ⟨s, ⟨h1, h2⟩, h3⟩; exact ⟨s, h1, h2, h3⟩
  · rintro ⟨s, h1, h2, h3⟩; exact ⟨s, ⟨h1, h2⟩, h3⟩

theorem sel_pruneTable [DecidableEq κ] (rows : List (Row κ α)) (kept : Nat)
    (hinj : ∀ k k', p k → p k' → k = k') :
    sel p (pruneTable rows kept) =
      (sel p rows).filter fun r => !(decide (r.1 < kept) && (sel p rows).any fun s => s.1 == kept) := by
  rw [pruneTable_eq]
  apply sel_filter
  intro r hr hp
  congr 2
  rw [Bool.eq_iff_iff]
  simp only [List.any_eq_true, Bool.and_eq_true, beq_iff_eq, decide_eq_true_eq]
  constructor
  · rintro ⟨s, hs, h1, h2⟩
    exact ⟨(s.block, s.val), mem_sel.2 ⟨s, hs, h2 ▸ hp, rfl⟩, h1⟩
  · rintro ⟨x, hx, h1⟩
    obtain ⟨s, hs, hps, rfl⟩ := mem_sel.1 hx
    exact ⟨s, hs, h1, hinj _ _ hps hp⟩

/-! ### interning -/

theorem intern_spec (tbl : List Nat) (x : Nat) (hn : tbl.Nodup) :
    (intern tbl x).1[(intern tbl x).2]? = some x ∧ (intern tbl x).1.Nodup ∧
      (∀ (i v : Nat), tbl[i]? = some v → (intern tbl x).1[i]? = some v) ∧ (intern tbl x).2 < (intern tbl x).1.length ∧
      tbl.length ≤ (intern tbl x).1.length := by
  unfold intern
  cases h : tbl.idxOf? x with
  | some i =>
    simp only
    have hi := List.idxOf?_eq_some_iff.1 h
    obtain ⟨h1, h2, h3⟩ := hi
    refine ⟨by rw [List.getElem?_eq_getElem h1]; simpa using h2, hn, fun _ _ h => h, h1, Nat.le_refl _⟩
  | none =>
    simp only
    have hx : x ∉ tbl := by simpa [List.idxOf?_eq_none_iff] using h
    refine ⟨by simp, ?_, ?_, by simp, by simp⟩
    · rw [List.nodup_append]
      refine ⟨hn, by simp, ?_⟩
      intro a ha b hb e
      simp at hb
      exact hx (hb ▸ e ▸ ha)
    · intro i v hi
      rw [List.getElem?_append_left (List.getElem?_eq_some_iff.1 hi).1]
      exact hi

theorem nodup_getElem?_inj {l : List Nat} (h : l.Nodup) {i j v : Nat} (hi : l[i]? = some v) (hj : l[j]? = some v) : i = j := by
  obtain ⟨hi1, hi2⟩ := List.getElem?_eq_some_iff.1 hi
  obtain ⟨hj1, hj2⟩ := List.getElem?_eq_some_iff.1 hj
  exact (List.getElem_inj h).1 (hi2.trans hj2.symm)

end Verif.State
