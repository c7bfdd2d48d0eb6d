import Verif.Diff.Spec
/-! Lemmas on sorted maps and on the decoding of the hashed stream. -/
namespace Verif.Diff

/-- A strict total order. -/
structure LtOk {κ : Type} (lt : κ → κ → Bool) : Prop where
  irrefl : ∀ a, lt a a = false
  trans : ∀ a b c, lt a b = true → lt b c = true → lt a c = true
  tri : ∀ a b, lt a b = false → a ≠ b → lt b a = true

theorem natLt_ok : LtOk natLt where
  irrefl := by simp [natLt]
  trans := by simp only [natLt, decide_eq_true_eq]; omega
  tri := by simp only [natLt, decide_eq_true_eq, decide_eq_false_iff_not]; omega

theorem pairLt_iff (a b : Nat × Nat) : pairLt a b = true ↔ a.1 < b.1 ∨ (a.1 = b.1 ∧ a.2 < b.2) := by
  simp [pairLt]

theorem pairLt_ok : LtOk pairLt where
  irrefl := by simp [pairLt]
  trans := by simp only [pairLt_iff]; omega
  tri := by
    rintro ⟨a, b⟩ ⟨c, d⟩ h hne
    have h' : ¬ pairLt (a, b) (c, d) = true := by simp [h]
    rw [pairLt_iff] at h' ⊢
    simp only [ne_eq, Prod.mk.injEq, not_and] at hne h' ⊢
    omega

section bt
variable {α κ : Type} [DecidableEq κ] {lt : κ → κ → Bool} {key : α → κ}

def Sorted (lt : κ → κ → Bool) (key : α → κ) (l : List α) : Prop := l.Pairwise fun x y => lt (key x) (key y) = true

/-- Elements with the same key are equal. -/
def KeyInj (key : α → κ) (l : List α) : Prop := ∀ x ∈ l, ∀ y ∈ l, key x = key y → x = y

theorem mem_btInsert_sub (x y : α) (l : List α) (h : y ∈ btInsert lt key x l) : y = x ∨ y ∈ l := by
  induction l with
  | nil => simpa [btInsert] using h
  | cons z l ih =>
    unfold btInsert at h
    split at h
    · simpa using h
    · split at h
      · rcases List.mem_cons.1 h with h | h
        · exact .inl h
        · exact .inr (List.mem_cons_of_mem _ h)
      · rcases List.mem_cons.1 h with h | h
        · exact .inr (h ▸ List.mem_cons_self)
        · rcases ih h with h | h
          · exact .inl h
          · exact .inr (List.mem_cons_of_mem _ h)

theorem mem_btInsert_self (x : α) (l : List α) : x ∈ btInsert lt key x l := by
  induction l with
  | nil => simp [btInsert]
  | cons z l ih =>
    unfold btInsert
    split
    · simp
    · split
      · simp
      · exact List.mem_cons_of_mem _ ih

theorem mem_btInsert_old (x y : α) (l : List α) (h : y ∈ l) (hk : key x = key y → x = y) : y ∈ btInsert lt key x l := by
  induction l with
  | nil => cases h
  | cons z l ih =>
    unfold btInsert
    split
    · exact List.mem_cons_of_mem _ h
    · split
      · rename_i hz
        rcases List.mem_cons.1 h with h | h
        · subst h
          rw [hk hz]
          exact List.mem_cons_self
        · exact List.mem_cons_of_mem _ h
      · rcases List.mem_cons.1 h with h | h
        · subst h; exact List.mem_cons_self
        · exact List.mem_cons_of_mem _ (ih h)

theorem sorted_btInsert (hlt : LtOk lt) (x : α) (l : List α) (h : Sorted lt key l) : Sorted lt key (btInsert lt key x l) := by
  induction l with
  | nil => exact List.pairwise_singleton ..
  | cons z l ih =>
    obtain ⟨h1, h2⟩ := List.pairwise_cons.1 h
    unfold btInsert
    split
    · rename_i hx
      refine List.pairwise_cons.2 ⟨?_, h⟩
      intro y hy
      rcases List.mem_cons.1 hy with rfl | hy
      · exact hx
      · exact hlt.trans _ _ _ hx (h1 y hy)
    · rename_i hx
      split
      · rename_i hz
        exact List.pairwise_cons.2 ⟨fun y hy => by rw [hz]; exact h1 y hy, h2⟩
      · rename_i hz
        refine List.pairwise_cons.2 ⟨?_, ih h2⟩
        intro y hy
        rcases mem_btInsert_sub x y l hy with rfl | hy
        · exact hlt.tri _ _ (by simpa using hx) hz
        · exact h1 y hy

theorem btree_gen (hlt : LtOk lt) (l : List α) : ∀ m : List α, Sorted lt key m → KeyInj key (m ++ l) →
    Sorted lt key (l.foldl (fun m x => btInsert lt key x m) m) ∧ ∀ x, x ∈ l.foldl (fun m x => btInsert lt key x m) m ↔ x ∈ m ∨ x ∈ l := by
  induction l with
  | nil => intro m h _; exact ⟨h, by simp⟩
  | cons y l ih =>
    intro m h hk
    have hmem : ∀ x, x ∈ btInsert lt key y m ↔ x = y ∨ x ∈ m := by
      intro x
      constructor
      · exact mem_btInsert_sub y x m
      · rintro (rfl | hx)
        · exact mem_btInsert_self x m
        · exact mem_btInsert_old y x m hx (hk y (by simp) x (by simp [hx]))
    obtain ⟨h1, h2⟩ := ih (btInsert lt key y m) (sorted_btInsert hlt y m h) (by
      intro x hx z hz
      refine hk x ?_ z ?_
      · rcases List.mem_append.1 hx with hx | hx
        · rcases (hmem x).1 hx with rfl | hx <;> simp [*]
        · simp [hx]
      · rcases List.mem_append.1 hz with hz | hz
        · rcases (hmem z).1 hz with rfl | hz <;> simp [*]
        · simp [hz])
    refine ⟨h1, fun x => ?_⟩
    rw [List.foldl_cons, h2, hmem, List.mem_cons]
    constructor
    · rintro ((h | h) | h) <;> simp [h]
    · rintro (h | h | h) <;> simp [h]

theorem btree_sorted (hlt : LtOk lt) {l : List α} (hk : KeyInj key l) : Sorted lt key (btree lt key l) :=
  (btree_gen hlt l [] List.Pairwise.nil hk).1

theorem mem_btree (hlt : LtOk lt) {l : List α} (hk : KeyInj key l) (x : α) : x ∈ btree lt key l ↔ x ∈ l := by
  have := (btree_gen hlt l [] List.Pairwise.nil hk).2 x
  simpa [btree] using this

omit [DecidableEq κ] in
/-- Sorted lists with the same elements are equal. -/
theorem sorted_ext (hlt : LtOk lt) {l l' : List α} (h : Sorted lt key l) (h' : Sorted lt key l') (hm : ∀ x, x ∈ l ↔ x ∈ l') : l = l' := by
  induction l generalizing l' with
  | nil =>
    cases l' with
    | nil => rfl
    | cons y l' => exact absurd ((hm y).2 List.mem_cons_self) (by simp)
  | cons x l ih =>
    cases l' with
    | nil => exact absurd ((hm x).1 List.mem_cons_self) (by simp)
    | cons y l' =>
      obtain ⟨h1, h2⟩ := List.pairwise_cons.1 h
      obtain ⟨h1', h2'⟩ := List.pairwise_cons.1 h'
      have hxy : x = y := by
        rcases List.mem_cons.1 ((hm x).1 List.mem_cons_self) with e | e
        · exact e
        · rcases List.mem_cons.1 ((hm y).2 List.mem_cons_self) with e2 | e2
          · exact e2.symm
          · have a := h1 y e2
            have b := h1' x e
            have := hlt.trans _ _ _ a b
            rw [hlt.irrefl] at this
            cases this
      subst hxy
      congr 1
      refine ih h2 h2' fun z => ?_
      constructor
      · intro hz
        rcases List.mem_cons.1 ((hm z).1 (List.mem_cons_of_mem _ hz)) with rfl | e
        · have := h1 z hz
          rw [hlt.irrefl] at this
          cases this
        · exact e
      · intro hz
        rcases List.mem_cons.1 ((hm z).2 (List.mem_cons_of_mem _ hz)) with rfl | e
        · have := h1' z hz
          rw [hlt.irrefl] at this
          cases this
        · exact e

/-- Two collections give the same sorted map if and only if they have the same elements. -/
theorem btree_eq_iff (hlt : LtOk lt) {l l' : List α} (hk : KeyInj key l) (hk' : KeyInj key l') :
    btree lt key l = btree lt key l' ↔ ∀ x, x ∈ l ↔ x ∈ l' := by
  constructor
  · intro h x
    rw [← mem_btree hlt hk, h, mem_btree hlt hk']
  · intro h
    exact sorted_ext hlt (btree_sorted hlt hk) (btree_sorted hlt hk') fun x => by rw [mem_btree hlt hk, mem_btree hlt hk', h x]

end bt

theorem keyInj_id (l : List (Nat × Nat)) : KeyInj (α := Nat × Nat) id l := fun _ _ _ _ h => h
theorem keyInj_id' (l : List Nat) : KeyInj (α := Nat) id l := fun _ _ _ _ h => h

theorem keyInj_map {β : Type} {l : List (Nat × β)} (h : (l.map (·.1)).Nodup) : KeyInj (·.1) l := by
  induction l with
  | nil => intro x hx; cases hx
  | cons p l ih =>
    have hn := List.nodup_cons.1 h
    intro x hx y hy e
    rcases List.mem_cons.1 hx with hx | hx <;> rcases List.mem_cons.1 hy with hy | hy
    · rw [hx, hy]
    · exact absurd (List.mem_map.2 ⟨y, hy, by rw [← hx]; exact e.symm⟩) hn.1
    · exact absurd (List.mem_map.2 ⟨x, hx, by rw [← hy]; exact e⟩) hn.1
    · exact ih hn.2 x hx y hy e

/-! ## Decoding -/

theorem pairs_length (l : List (Nat × Nat)) : (l.flatMap fun p => [p.1, p.2]).length = 2 * l.length := by
  induction l with
  | nil => rfl
  | cons p l ih => simp [ih]; omega

theorem pairs_inj {l l' : List (Nat × Nat)} (h : (l.flatMap fun p => [p.1, p.2]) = l'.flatMap fun p => [p.1, p.2]) : l = l' := by
  induction l generalizing l' with
  | nil => cases l' with
    | nil => rfl
    | cons p l' => simp at h
  | cons p l ih => cases l' with
    | nil => simp at h
    | cons q l' =>
      simp only [List.flatMap_cons, List.cons_append, List.nil_append, List.cons.injEq] at h
      rw [ih h.2.2, Prod.ext h.1 h.2.1]

theorem writePairs_inj {l l' : List (Nat × Nat)} {r r' : List Nat} (h : writePairs l ++ r = writePairs l' ++ r') : l = l' ∧ r = r' := by
  simp only [writePairs, List.cons_append, List.cons.injEq] at h
  obtain ⟨h1, h2⟩ := h
  obtain ⟨h3, h4⟩ := List.append_inj h2 (by rw [pairs_length, pairs_length, h1])
  exact ⟨pairs_inj h3, h4⟩

theorem list_inj {l l' r r' : List Nat} (h : (l.length :: l) ++ r = (l'.length :: l') ++ r') : l = l' ∧ r = r' := by
  simp only [List.cons_append, List.cons.injEq] at h
  exact List.append_inj h.2 h.1

theorem storage_inj_aux {l l' : List (Nat × List (Nat × Nat))} (hlen : l.length = l'.length) {r r' : List Nat}
    (h : (l.flatMap fun p => p.1 :: writePairs p.2) ++ r = (l'.flatMap fun p => p.1 :: writePairs p.2) ++ r') : l = l' ∧ r = r' := by
  induction l generalizing l' with
  | nil => cases l' with
    | nil => exact ⟨rfl, h⟩
    | cons q l' => simp at hlen
  | cons p l ih => cases l' with
    | nil => simp at hlen
    | cons q l' =>
      simp only [List.flatMap_cons, List.cons_append, List.append_assoc, List.cons.injEq] at h
      obtain ⟨h1, h2⟩ := h
      obtain ⟨h3, h4⟩ := writePairs_inj h2
      obtain ⟨h5, h6⟩ := ih (by simpa using hlen) h4
      exact ⟨by rw [h5, Prod.ext h1 h3], h6⟩

theorem storage_inj {l l' : List (Nat × List (Nat × Nat))} {r r' : List Nat}
    (h : (l.length :: l.flatMap fun p => p.1 :: writePairs p.2) ++ r = (l'.length :: l'.flatMap fun p => p.1 :: writePairs p.2) ++ r') :
    l = l' ∧ r = r' := by
  simp only [List.cons_append, List.cons.injEq] at h
  exact storage_inj_aux h.1 h.2

/-- The stream determines its parts. -/
theorem diffStream_inj {u u' : SU} : diffStream u = diffStream u' ↔
    deployed u = deployed u' ∧ classes u = classes u' ∧ cairoClasses u = cairoClasses u' ∧ storageDiffs u = storageDiffs u' ∧
      nonces u = nonces u' := by
  constructor
  · intro h
    simp only [diffStream, List.append_assoc, List.cons_append, List.cons.injEq, true_and] at h
    obtain ⟨h1, h⟩ := writePairs_inj h
    obtain ⟨h2, h⟩ := writePairs_inj h
    obtain ⟨h3, h⟩ := list_inj (by simpa only [List.cons_append] using h)
    simp only [List.nil_append, List.cons.injEq, true_and] at h
    obtain ⟨h4, h⟩ := storage_inj (by simpa only [List.cons_append, List.cons.injEq] using h)
    obtain ⟨h5, _⟩ := writePairs_inj (r := []) (r' := []) (by simpa using h)
    exact ⟨h1, h2, h3, h4, h5⟩
  · rintro ⟨h1, h2, h3, h4, h5⟩
    simp only [diffStream, h1, h2, h3, h4, h5]

end Verif.Diff
