import Verif.State.Spec
/-
One versioned table restricted to one key, compared with the chain of updates.
-/
namespace Verif.State
open Verif.Db

theorem newest_some {α : Type} {rows : List (Nat × α)} {r : Nat × α} (h : newest rows = some r) :
    r ∈ rows ∧ ∀ s ∈ rows, s.1 ≤ r.1 := by
  obtain ⟨h1, h2, h3⟩ := latest_some h
  refine ⟨h1, fun s hs => h3 s hs ?_⟩
  clear h h3 h1 h2
  induction rows with
  | nil => simp at hs
  | cons x xs ih =>
    simp only [List.map_cons, List.foldr_cons]
    rcases List.mem_cons.1 hs with e | hs
    · rw [e]; omega
    · have := ih hs; omega

theorem newest_none {α : Type} {rows : List (Nat × α)} (h : newest rows = none) : rows = [] := by
  cases rows with
  | nil => rfl
  | cons x xs =>
    exfalso
    have := latest_none.1 h x (by simp)
    simp only [List.map_cons, List.foldr_cons] at this
    omega

theorem newest_eq_latest {α : Type} {rows : List (Nat × α)} (hk : Keyed rows) {b : Nat} (hb : ∀ r ∈ rows, r.1 ≤ b) :
    newest rows = latest rows b := by
  cases h : newest rows with
  | none => rw [newest_none h]; rfl
  | some r =>
    obtain ⟨h1, h2⟩ := newest_some h
    symm
    rw [latest_eq_some_iff hk]
    exact ⟨h1, hb r h1, fun s hs _ => h2 s hs⟩

/-- Induction on the end of a list. -/
theorem snoc_induction {β : Type} {P : List β → Prop} (h0 : P []) (h1 : ∀ us u, P us → P (us ++ [u])) : ∀ us, P us := by
  have : ∀ us : List β, P us.reverse := by
    intro us
    induction us with
    | nil => exact h0
    | cons u us ih => rw [List.reverse_cons]; exact h1 _ _ ih
  intro us
  have := this us.reverse
  rwa [List.reverse_reverse] at this

theorem findSome?_reverse_iff {β γ : Type} (f : β → Option γ) (us : List β) (v : γ) :
    us.reverse.findSome? f = some v ↔
      ∃ i, i < us.length ∧ us[i]?.bind f = some v ∧ ∀ j, i < j → us[j]?.bind f = none := by
  induction us using snoc_induction with
  | h0 => simp
  | h1 us u ih =>
    rw [List.reverse_append]
    simp only [List.reverse_cons, List.reverse_nil, List.nil_append, List.singleton_append, List.findSome?_cons]
    cases hu : f u with
    | some w =>
      constructor
      · intro h
        refine ⟨us.length, by simp, by simpa [hu] using h, ?_⟩
        intro j hj
        rw [List.getElem?_eq_none (by simp; omega)]; rfl
      · rintro ⟨i, hi, h1, h2⟩
        by_cases e : i = us.length
        · subst e; simpa [hu] using h1
        · have := h2 us.length (by simp at hi; omega)
          simp [hu] at this
    | none =>
      simp only [ih]
      constructor
      · rintro ⟨i, hi, h1, h2⟩
        refine ⟨i, by simp; omega, by rw [List.getElem?_append_left hi]; exact h1, ?_⟩
        intro j hj
        by_cases hj2 : j < us.length
        · rw [List.getElem?_append_left hj2]; exact h2 j hj
        · by_cases e : j = us.length
          · subst e; simp [hu]
          · rw [List.getElem?_eq_none (by simp; omega)]; rfl
      · rintro ⟨i, hi, h1, h2⟩
        have hi2 : i < us.length := by
          by_cases e : i = us.length
          · subst e; simp [hu] at h1
          · simp at hi; omega
        refine ⟨i, hi2, by rw [List.getElem?_append_left hi2] at h1; exact h1, ?_⟩
        intro j hj
        have := h2 j hj
        by_cases hj2 : j < us.length
        · rw [List.getElem?_append_left hj2] at this; exact this
        · rw [List.getElem?_eq_none (by omega)]; rfl

theorem asOf_eq_some {β γ : Type} {f : β → Option γ} {us : List β} {n : Nat} {v : γ} :
    asOf f us n = some v ↔
      ∃ i, i ≤ n ∧ us[i]?.bind f = some v ∧ ∀ j, i < j → j ≤ n → us[j]?.bind f = none := by
  unfold asOf
  rw [findSome?_reverse_iff]
  constructor
  · rintro ⟨i, hi, h1, h2⟩
    rw [List.length_take] at hi
    refine ⟨i, by omega, by rw [List.getElem?_take_of_lt (by omega)] at h1; exact h1, ?_⟩
    intro j hj hn
    have := h2 j hj
    rw [List.getElem?_take_of_lt (by omega)] at this
    exact this
  · rintro ⟨i, hi, h1, h2⟩
    have hl : i < us.length := by
      apply Classical.byContradiction
      intro hn
      rw [List.getElem?_eq_none (by omega)] at h1; simp at h1
    refine ⟨i, by rw [List.length_take]; omega, by rw [List.getElem?_take_of_lt (by omega)]; exact h1, ?_⟩
    intro j hj
    by_cases hn : j ≤ n
    · rw [List.getElem?_take_of_lt (by omega)]; exact h2 j hj hn
    · rw [List.getElem?_eq_none (by rw [List.length_take]; omega)]; rfl

theorem asOf_eq_none {β γ : Type} {f : β → Option γ} {us : List β} {n : Nat} :
    asOf f us n = none ↔ ∀ j, j ≤ n → us[j]?.bind f = none := by
  unfold asOf
  rw [List.findSome?_eq_none_iff]
  constructor
  · intro h j hj
    cases hu : us[j]? with
    | none => rfl
    | some u =>
      apply h u
      rw [List.mem_reverse, List.mem_iff_getElem?]
      exact ⟨j, by rw [List.getElem?_take_of_lt (by omega)]; exact hu⟩
  · intro h u hu
    rw [List.mem_reverse, List.mem_iff_getElem?] at hu
    obtain ⟨j, hj⟩ := hu
    have hj2 : j < (us.take (n+1)).length := by
      apply Classical.byContradiction
      intro hn
      rw [List.getElem?_eq_none (by omega)] at hj; simp at hj
    rw [List.length_take] at hj2
    rw [List.getElem?_take_of_lt (by omega)] at hj
    have := h j (by omega)
    rw [hj] at this
    exact this

/-- The rows of one key say what the chain says, except that rows overwritten at or below `lo` may be gone. -/
structure Tab {β α : Type} (f : β → Option α) (us : List β) (lo : Nat) (rows : List (Nat × α)) : Prop where
  keyed : Keyed rows
  sound : ∀ r ∈ rows, us[r.1]?.bind f = some r.2
  complete : ∀ i v, us[i]?.bind f = some v → (i, v) ∈ rows ∨ ∃ j w, i < j ∧ j ≤ lo ∧ us[j]?.bind f = some w

theorem bind_lt {β α : Type} {f : β → Option α} {us : List β} {i : Nat} {v : α} (h : us[i]?.bind f = some v) :
    i < us.length := by
  apply Classical.byContradiction
  intro hn
  rw [List.getElem?_eq_none (by omega)] at h; simp at h

theorem Tab.latest {β α : Type} {f : β → Option α} {us : List β} {lo : Nat} {rows : List (Nat × α)}
    (h : Tab f us lo rows) {n : Nat} (hn : lo ≤ n) : (latest rows n).map (·.2) = asOf f us n := by
  cases hl : Db.latest rows n with
  | none =>
    symm
    simp only [Option.map_none]
    rw [asOf_eq_none]
    intro j hj
    -- take the last writer at or before n
    cases hc : asOf f us n with
    | none => exact asOf_eq_none.1 hc j hj
    | some v =>
      exfalso
      obtain ⟨i, hi, h1, h2⟩ := asOf_eq_some.1 hc
      rcases h.complete i v h1 with hm | ⟨j, w, hj1, hj2, hw⟩
      · have := latest_none.1 hl _ hm; simp at this; omega
      · rw [h2 j hj1 (by omega)] at hw; simp at hw
  | some r =>
    obtain ⟨g1, g2, g3⟩ := latest_some hl
    symm
    simp only [Option.map_some]
    rw [asOf_eq_some]
    cases hc : asOf f us n with
    | none =>
      have := asOf_eq_none.1 hc r.1 g2
      rw [h.sound r g1] at this
      simp at this
    | some v =>
      obtain ⟨i, hi, h1, h2⟩ := asOf_eq_some.1 hc
      have hri : r.1 ≤ i := by
        apply Classical.byContradiction
        intro hne
        have := h2 r.1 (by omega) g2
        rw [h.sound r g1] at this; simp at this
      rcases h.complete i v h1 with hm | ⟨j, w, hj1, hj2, hw⟩
      · have := g3 _ hm hi
        simp at this
        have e : r.1 = i := by omega
        refine ⟨r.1, g2, h.sound r g1, ?_⟩
        rw [e]; exact h2
      · rw [h2 j hj1 (by omega)] at hw; simp at hw

theorem Tab.lt {β α : Type} {f : β → Option α} {us : List β} {lo : Nat} {rows : List (Nat × α)}
    (h : Tab f us lo rows) {r : Nat × α} (hr : r ∈ rows) : r.1 < us.length := bind_lt (h.sound r hr)

theorem Tab.newest {β α : Type} {f : β → Option α} {us : List β} {lo : Nat} {rows : List (Nat × α)}
    (h : Tab f us lo rows) (hlo : lo ≤ us.length) : (newest rows).map (·.2) = asOf f us us.length := by
  rw [newest_eq_latest h.keyed (b := us.length) fun r hr => by have := h.lt hr; omega]
  exact h.latest hlo

theorem Tab.nil {β α : Type} (f : β → Option α) : Tab f [] 0 [] :=
  ⟨Keyed.nil, by simp, by simp⟩

/-- A new block adds its row. -/
theorem Tab.append {β α : Type} {f : β → Option α} {us : List β} {lo : Nat} {rows : List (Nat × α)}
    (h : Tab f us lo rows) (u : β) :
    Tab f (us ++ [u]) lo (rows ++ (f u).toList.map fun v => (us.length, v)) := by
  have key : ∀ i, i < us.length → (us ++ [u])[i]? = us[i]? := fun i hi => List.getElem?_append_left hi
  constructor
  · unfold Keyed
    rw [List.pairwise_append]
    refine ⟨h.keyed, ?_, ?_⟩
    · cases f u <;> simp
    · intro r hr s hs
      have := h.lt hr
      cases hf : f u with
      | none => rw [hf] at hs; simp at hs
      | some v => rw [hf] at hs; simp at hs; rw [hs]; simp; omega
  · intro r hr
    rw [List.mem_append] at hr
    rcases hr with hr | hr
    · rw [key _ (h.lt hr)]; exact h.sound r hr
    · cases hf : f u with
      | none => rw [hf] at hr; simp at hr
      | some v => rw [hf] at hr; simp at hr; rw [hr]; simp [hf]
  · intro i v hi
    by_cases e : i < us.length
    · rw [key _ e] at hi
      rcases h.complete i v hi with hm | ⟨j, w, h1, h2, h3⟩
      · left; exact List.mem_append_left _ hm
      · right
        refine ⟨j, w, h1, h2, ?_⟩
        rw [key _ (bind_lt h3)]; exact h3
    · have := bind_lt hi
      simp at this
      have e : i = us.length := by omega
      subst e
      simp at hi
      left
      simp [hi]

/-- Purging the blocks from `tail` on. -/
theorem Tab.take {β α : Type} {f : β → Option α} {us : List β} {lo : Nat} {rows : List (Nat × α)}
    (h : Tab f us lo rows) {tail : Nat} (hlo : lo < tail ∨ (tail = 0 ∧ lo = 0)) :
    Tab f (us.take tail) lo (rows.filter fun r => decide (r.1 < tail)) := by
  have key : ∀ i, i < tail → (us.take tail)[i]? = us[i]? := fun i hi => List.getElem?_take_of_lt hi
  constructor
  · exact h.keyed.filter _
  · intro r hr
    simp at hr
    rw [key _ hr.2]; exact h.sound r hr.1
  · intro i v hi
    have hl := bind_lt hi
    rw [List.length_take] at hl
    rw [key _ (by omega)] at hi
    rcases h.complete i v hi with hm | ⟨j, w, h1, h2, h3⟩
    · left
      simp [hm]; omega
    · right
      refine ⟨j, w, h1, h2, ?_⟩
      rw [key _ (by omega)]; exact h3

/-- Pruning block `lo`: if block `lo + 1` writes the key, the older rows go. -/
theorem Tab.prune {β α : Type} {f : β → Option α} {us : List β} {lo : Nat} {rows : List (Nat × α)}
    (h : Tab f us lo rows) :
    Tab f us (lo + 1) (rows.filter fun r => !(decide (r.1 < lo + 1) && rows.any fun s => s.1 == lo + 1)) := by
  constructor
  · exact h.keyed.filter _
  · intro r hr
    exact h.sound r (List.mem_filter.1 hr).1
  · intro i v hi
    rcases h.complete i v hi with hm | ⟨j, w, h1, h2, h3⟩
    · by_cases hp : (i < lo + 1 ∧ ∃ s ∈ rows, s.1 = lo + 1)
      · obtain ⟨hil, s, hs, he⟩ := hp
        right
        exact ⟨s.1, s.2, by omega, by omega, h.sound s hs⟩
      · left
        rw [List.mem_filter]
        refine ⟨hm, ?_⟩
        simp only [Bool.not_eq_true', Bool.and_eq_false_iff, decide_eq_false_iff_not, List.any_eq_false, beq_iff_eq]
        by_cases hil : i < lo + 1
        · right
          intro s hs he
          exact hp ⟨hil, s, hs, he⟩
        · left; exact hil
    · right; exact ⟨j, w, h1, by omega, h3⟩

theorem Tab.mono {β α : Type} {f : β → Option α} {us : List β} {lo lo' : Nat} {rows : List (Nat × α)}
    (h : Tab f us lo rows) (hl : lo ≤ lo') : Tab f us lo' rows := by
  refine ⟨h.keyed, h.sound, ?_⟩
  intro i v hi
  rcases h.complete i v hi with hm | ⟨j, w, h1, h2, h3⟩
  · exact .inl hm
  · exact .inr ⟨j, w, h1, by omega, h3⟩

end Verif.State
