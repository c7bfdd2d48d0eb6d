/-
Generic model of the SQL query pattern
  `SELECT v FROM t WHERE key = ? AND block_number <= ? ORDER BY block_number DESC LIMIT 1`
used all over crates/storage/src/connection (trie.rs 54-58, 86-90, 240-250; state_update.rs 629-640, 735-745, ...).
A table restricted to one key is a list of rows `(block_number, value)`.
-/
namespace Verif.Db

variable {α : Type}

/-- Latest row at or before block `b`. -/
def latest : List (Nat × α) → Nat → Option (Nat × α)
  | [], _ => none
  | r :: rs, b =>
    if r.1 ≤ b then
      match latest rs b with
      | none => some r
      | some s => if s.1 ≤ r.1 then some r else some s
    else latest rs b

/-- `INSERT OR REPLACE` with primary key `block_number` (within one key). -/
def upsert (rows : List (Nat × α)) (n : Nat) (v : α) : List (Nat × α) :=
  (n, v) :: rows.filter fun r => r.1 != n

/-- `DELETE ... WHERE block_number = n`. -/
def deleteAt (rows : List (Nat × α)) (n : Nat) : List (Nat × α) := rows.filter fun r => r.1 != n

/-- `DELETE ... WHERE block_number < n`. -/
def deleteBelow (rows : List (Nat × α)) (n : Nat) : List (Nat × α) := rows.filter fun r => n ≤ r.1

/-- Primary key: at most one row per block. -/
def Keyed (rows : List (Nat × α)) : Prop := rows.Pairwise fun r s => r.1 ≠ s.1

theorem latest_none {rows : List (Nat × α)} {b : Nat} : latest rows b = none ↔ ∀ r ∈ rows, b < r.1 := by
  induction rows with
  | nil => simp [latest]
  | cons r rs ih =>
    simp only [latest, List.mem_cons, forall_eq_or_imp]
    split
    · rename_i h
      constructor
      · intro h2; split at h2 <;> (try split at h2) <;> simp at h2
      · intro h2; omega
    · rename_i h
      rw [ih]
      constructor
      · intro h2; exact ⟨by omega, h2⟩
      · intro h2; exact h2.2

theorem latest_some {rows : List (Nat × α)} {b : Nat} {s : Nat × α} (h : latest rows b = some s) :
    s ∈ rows ∧ s.1 ≤ b ∧ ∀ r ∈ rows, r.1 ≤ b → r.1 ≤ s.1 := by
  induction rows generalizing s with
  | nil => simp [latest] at h
  | cons r rs ih =>
    simp only [latest] at h
    split at h
    · rename_i hr
      split at h
      · rename_i hn
        cases h
        rw [latest_none] at hn
        refine ⟨List.mem_cons_self, hr, ?_⟩
        intro x hx hxb
        rcases List.mem_cons.1 hx with rfl | hx
        · omega
        · have := hn x hx; omega
      · rename_i q hq
        obtain ⟨h1, h2, h3⟩ := ih hq
        split at h
        · rename_i hle
          cases h
          refine ⟨List.mem_cons_self, hr, ?_⟩
          intro x hx hxb
          rcases List.mem_cons.1 hx with rfl | hx
          · omega
          · have := h3 x hx hxb; omega
        · rename_i hle
          cases h
          refine ⟨List.mem_cons_of_mem _ h1, h2, ?_⟩
          intro x hx hxb
          rcases List.mem_cons.1 hx with rfl | hx
          · omega
          · exact h3 x hx hxb
    · rename_i hr
      obtain ⟨h1, h2, h3⟩ := ih h
      refine ⟨List.mem_cons_of_mem _ h1, h2, ?_⟩
      intro x hx hxb
      rcases List.mem_cons.1 hx with rfl | hx
      · omega
      · exact h3 x hx hxb

theorem Keyed.eq_of_mem {rows : List (Nat × α)} (h : Keyed rows) {r s : Nat × α} (hr : r ∈ rows) (hs : s ∈ rows)
    (e : r.1 = s.1) : r = s := by
  induction rows with
  | nil => simp at hr
  | cons x xs ih =>
    rw [Keyed, List.pairwise_cons] at h
    rcases List.mem_cons.1 hr with hr | hr <;> rcases List.mem_cons.1 hs with hs | hs
    · rw [hr, hs]
    · exact absurd (hr ▸ e) (h.1 s hs)
    · exact absurd (hs ▸ e).symm (h.1 r hr)
    · exact ih h.2 hr hs

/-- With a primary key, the latest row is characterised by its bounds. -/
theorem latest_eq_some_iff {rows : List (Nat × α)} (hk : Keyed rows) {b : Nat} {s : Nat × α} :
    latest rows b = some s ↔ s ∈ rows ∧ s.1 ≤ b ∧ ∀ r ∈ rows, r.1 ≤ b → r.1 ≤ s.1 := by
  constructor
  · exact latest_some
  · rintro ⟨h1, h2, h3⟩
    cases h : latest rows b with
    | none =>
      have := latest_none.1 h s h1
      omega
    | some q =>
      obtain ⟨g1, g2, g3⟩ := latest_some h
      have := h3 q g1 g2
      have := g3 s h1 h2
      rw [hk.eq_of_mem g1 h1 (by omega)]

/-- The answer only depends on the rows at or before `b`. -/
theorem latest_congr {rows rows' : List (Nat × α)} (hk' : Keyed rows') {b : Nat}
    (h : ∀ r, r.1 ≤ b → (r ∈ rows ↔ r ∈ rows')) : latest rows b = latest rows' b := by
  cases h1 : latest rows b with
  | none =>
    rw [latest_none] at h1
    symm
    rw [latest_none]
    intro r hr
    apply Classical.byContradiction
    intro hn
    have := h1 r ((h r (by omega)).2 hr)
    omega
  | some s =>
    obtain ⟨g1, g2, g3⟩ := latest_some h1
    symm
    rw [latest_eq_some_iff hk']
    exact ⟨(h s g2).1 g1, g2, fun r hr hb => g3 r ((h r hb).2 hr) hb⟩

theorem Keyed.filter {rows : List (Nat × α)} (h : Keyed rows) (p : Nat × α → Bool) : Keyed (rows.filter p) :=
  List.Pairwise.filter p h

theorem Keyed.nil : Keyed ([] : List (Nat × α)) := List.Pairwise.nil

theorem Keyed.upsert {rows : List (Nat × α)} (h : Keyed rows) (n : Nat) (v : α) : Keyed (upsert rows n v) := by
  unfold Db.upsert Keyed
  rw [List.pairwise_cons]
  refine ⟨?_, List.Pairwise.filter _ h⟩
  intro r hr
  simp at hr
  exact fun e => hr.2 e.symm

theorem mem_upsert {rows : List (Nat × α)} {n : Nat} {v : α} {r : Nat × α} :
    r ∈ upsert rows n v ↔ r = (n, v) ∨ (r ∈ rows ∧ r.1 ≠ n) := by
  simp [upsert]

/-- After an upsert at `n`, earlier blocks see what they saw before. -/
theorem latest_upsert_lt {rows : List (Nat × α)} (hk : Keyed rows) {n b : Nat} {v : α} (h : b < n) :
    latest (upsert rows n v) b = latest rows b := by
  refine latest_congr hk ?_
  intro r hr
  rw [mem_upsert]
  constructor
  · rintro (rfl | h2)
    · simp at hr; omega
    · exact h2.1
  · intro h2; exact .inr ⟨h2, by omega⟩

/-- After an upsert at `n`, blocks from `n` on see the new row if there is no later row. -/
theorem latest_upsert_ge {rows : List (Nat × α)} (hk : Keyed rows) {n b : Nat} {v : α} (h : n ≤ b)
    (hno : ∀ r ∈ rows, r.1 ≤ b → r.1 ≤ n) : latest (upsert rows n v) b = some (n, v) := by
  rw [latest_eq_some_iff (hk.upsert n v)]
  refine ⟨by simp [upsert], h, ?_⟩
  intro r hr hb
  rw [mem_upsert] at hr
  rcases hr with rfl | hr
  · simp
  · exact hno r hr.1 hb

theorem latest_filter_ge {rows : List (Nat × α)} (hk : Keyed rows) {b l : Nat} {v : α}
    (hl : (l, v) ∈ rows) (hb : l ≤ b) : latest (deleteBelow rows l) b = latest rows b := by
  cases h : latest rows b with
  | none => rw [latest_none] at h; have := h _ hl; simp at this; omega
  | some s =>
    obtain ⟨h1, h2, h3⟩ := latest_some h
    unfold deleteBelow
    rw [latest_eq_some_iff (hk.filter _)]
    refine ⟨?_, h2, ?_⟩
    · have := h3 _ hl hb
      simp at this
      simp [h1, this]
    · intro r hr hb
      simp at hr
      exact h3 r hr.1 hb

theorem latest_deleteBelow {rows : List (Nat × α)} (hk : Keyed rows) (l b : Nat) :
    latest (deleteBelow rows l) b = latest rows b ∨ latest (deleteBelow rows l) b = none := by
  cases h : latest (deleteBelow rows l) b with
  | none => exact .inr rfl
  | some s =>
    left
    unfold deleteBelow at h
    obtain ⟨h1, h2, h3⟩ := latest_some h
    simp only [List.mem_filter, decide_eq_true_eq] at h1 h3
    symm
    rw [latest_eq_some_iff hk]
    refine ⟨h1.1, h2, ?_⟩
    intro r hr hb
    by_cases hl : l ≤ r.1
    · exact h3 r ⟨hr, hl⟩ hb
    · omega

/-- Deleting the row at `n` does not change what earlier blocks see. -/
theorem latest_deleteAt_lt {rows : List (Nat × α)} (hk : Keyed rows) {n b : Nat} (h : b < n) :
    latest (deleteAt rows n) b = latest rows b := by
  unfold deleteAt
  refine latest_congr hk ?_
  intro r hr
  simp
  intro _
  omega

theorem latest_eq_of_no_between {rows : List (Nat × α)} (hk : Keyed rows) {b b' : Nat} (h : b ≤ b')
    (hno : ∀ r ∈ rows, r.1 ≤ b' → r.1 ≤ b) : latest rows b' = latest rows b := by
  cases h1 : latest rows b with
  | none =>
    rw [latest_none] at h1 ⊢
    intro r hr
    have := h1 r hr
    apply Classical.byContradiction
    intro hc
    have := hno r hr (by omega)
    omega
  | some s =>
    obtain ⟨g1, g2, g3⟩ := latest_some h1
    rw [latest_eq_some_iff hk]
    exact ⟨g1, by omega, fun r hr hb => g3 r hr (hno r hr hb)⟩

end Verif.Db
