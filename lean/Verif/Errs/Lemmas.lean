import Verif.Errs.Spec

namespace Verif.Errs

/-- The last text of a stack, read from its end. -/
theorem last_text (xs ys : List Frame) (t : Text) (h : ∀ f ∈ ys, textOf f = none) :
    (((xs ++ .text t :: ys).reverse.filterMap textOf).head?).getD unknownText = t := by
  have hy : ys.reverse.filterMap textOf = [] := by
    rw [List.filterMap_eq_nil_iff]
    intro f hf
    exact h f (List.mem_reverse.1 hf)
  simp [List.filterMap_append, hy, textOf]

theorem no_text (xs : List Frame) (h : ∀ f ∈ xs, textOf f = none) :
    ((xs.reverse.filterMap textOf).head?).getD unknownText = unknownText := by
  have hy : xs.reverse.filterMap textOf = [] := by
    rw [List.filterMap_eq_nil_iff]
    intro f hf
    exact h f (List.mem_reverse.1 hf)
  simp [hy]

/-- One layer of the JSON. -/
def layer (c : Call) (child : Json) : Json := .obj [
    ("contract_address", .felt c.address), ("class_hash", .felt c.classHash),
    ("selector", selJson c.selector), ("error", child)]

theorem stackJson_eq (fs : List Frame) : stackJson fs =
    (fs.filterMap callOf).foldr layer
      (.str (((fs.reverse.filterMap textOf).head?).getD unknownText)) := by
  simp only [stackJson, List.foldl_reverse]
  rfl

theorem layer_address (c : Call) (j : Json) :
    (layer c j).field "contract_address" = some (.felt c.address) := by
  simp [layer, Json.field, List.lookup]

theorem layer_class (c : Call) (j : Json) :
    (layer c j).field "class_hash" = some (.felt c.classHash) := by
  simp [layer, Json.field, List.lookup]

theorem layer_selector (c : Call) (j : Json) :
    (layer c j).field "selector" = some (selJson c.selector) := by
  simp [layer, Json.field, List.lookup]

theorem layer_error (c : Call) (j : Json) : (layer c j).field "error" = some j := by
  simp [layer, Json.field, List.lookup]

/-- Layers with selectors show their calls. -/
theorem shows_foldr (cs : List Call) (t : Text) (h : ∀ c ∈ cs, c.selector ≠ none) :
    Shows (cs.foldr layer (.str t)) (cs.map fun c => (c.address, c.classHash, c.selector.getD 0)) t := by
  induction cs with
  | nil => exact .text t
  | cons c cs ih =>
    have hc := h c (by simp)
    cases hs : c.selector with
    | none => exact absurd hs hc
    | some s =>
      simp only [List.foldr_cons, List.map_cons, hs, Option.getD_some]
      refine .call (layer_address _ _) (layer_class _ _) ?_ (layer_error _ _)
        (ih fun x hx => h x (by simp [hx]))
      rw [layer_selector, hs]
      rfl

/-- What is shown determines the layers. -/
theorem shows_inv (cs : List Call) (t : Text) {xs : List (Nat × Nat × Nat)} {u : Text}
    (h : Shows (cs.foldr layer (.str t)) xs u) :
    u = t ∧ (∀ c ∈ cs, c.selector ≠ none) ∧
      xs = cs.map fun c => (c.address, c.classHash, c.selector.getD 0) := by
  induction cs generalizing xs with
  | nil =>
    cases h with
    | text => exact ⟨rfl, by simp, rfl⟩
    | call ha => simp [Json.field] at ha
  | cons c cs ih =>
    rw [List.foldr_cons] at h
    generalize hj : layer c (cs.foldr layer (.str t)) = j at h
    cases h with
    | text => simp [layer] at hj
    | call ha hc hs he h =>
      subst hj
      rw [layer_address, Option.some.injEq, Json.felt.injEq] at ha
      rw [layer_class, Option.some.injEq, Json.felt.injEq] at hc
      rw [layer_selector, Option.some.injEq] at hs
      rw [layer_error, Option.some.injEq] at he
      subst he
      obtain ⟨h1, h2, h3⟩ := ih h
      cases hsel : c.selector with
      | none => rw [hsel] at hs; simp [selJson] at hs
      | some s =>
        rw [hsel] at hs
        simp only [selJson, Json.felt.injEq] at hs
        refine ⟨h1, ?_, ?_⟩
        · intro x hx
          rcases List.mem_cons.1 hx with e | hx
          · rw [e, hsel]; simp
          · exact h2 x hx
        · rw [List.map_cons, hsel, h3, ha, hc, hs]
          rfl

theorem contains_iff (p s : Text) : contains p s = true ↔ PartOf p s := by
  induction s with
  | nil =>
    simp only [contains, PartOf]
    cases p with
    | nil => simp
    | cons => simp [List.isPrefixOf]
  | cons c s ih =>
    simp only [contains, Bool.or_eq_true, ih, PartOf, List.isPrefixOf_iff_prefix]
    constructor
    · rintro (⟨b, hb⟩ | ⟨a, b, rfl⟩)
      · exact ⟨[], b, by simp [hb]⟩
      · exact ⟨c :: a, b, by simp⟩
    · rintro ⟨a, b, h⟩
      cases a with
      | nil => exact Or.inl ⟨b, by simpa using h.symm⟩
      | cons x a =>
        simp only [List.cons_append, List.cons.injEq] at h
        exact Or.inr ⟨a, b, h.2⟩

end Verif.Errs
