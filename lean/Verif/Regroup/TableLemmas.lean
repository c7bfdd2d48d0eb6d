import Verif.Regroup.Lemmas
/-!
# The tables at the end
-/
namespace Verif.Regroup
open Verif.Block (F Tx Receipt Event)
open Verif.Body (DB Row Hdr)

variable {E : Type}

theorem inj_of_nodup {A B : Type} {f : A → B} : ∀ {l : List A}, (l.map f).Nodup → ∀ {a b : A}, a ∈ l → b ∈ l → f a = f b → a = b
  | x :: l, hd, a, b, ha, hb, e => by
    rw [List.map_cons, List.nodup_cons] at hd
    rcases List.mem_cons.1 ha with ha' | ha' <;> rcases List.mem_cons.1 hb with hb' | hb'
    · rw [ha', hb']
    · rw [ha'] at e; exact absurd (List.mem_map.2 ⟨b, hb', e.symm⟩) hd.1
    · rw [hb'] at e; exact absurd (List.mem_map.2 ⟨a, ha', e⟩) hd.1
    · exact inj_of_nodup hd.2 ha' hb' e

theorem numbers_perm (w : World E) : w.numbers.Perm (w.headers.map (·.number)) := List.mergeSort_perm _ _

theorem mem_numbers {w : World E} {n : Nat} : n ∈ w.numbers ↔ ∃ h ∈ w.headers, h.number = n := by
  rw [(numbers_perm w).mem_iff, List.mem_map]

theorem rowsOf_perm (w : World E) (n : Nat) : (w.rowsOf n).Perm (w.old.filter fun r => r.number == n) := List.mergeSort_perm _ _

theorem mem_rowsOf {w : World E} {n : Nat} {r : OldRow E} : r ∈ w.rowsOf n ↔ r ∈ w.old ∧ r.number = n := by
  rw [(rowsOf_perm w n).mem_iff, List.mem_filter]
  simp

theorem rowsOf_idx {w : World E} (h : OldOk w) (n : Nat) : (w.rowsOf n).map (·.idx) = List.range (w.rowsOf n).length := by
  apply List.Perm.eq_of_pairwise (le := fun a b => a ≤ b)
  · intro a b _ _ h1 h2
    omega
  · rw [List.pairwise_map]
    have := List.pairwise_mergeSort (le := fun a b : OldRow E => decide (a.idx ≤ b.idx))
      (by intro a b c; simp only [decide_eq_true_eq]; omega) (by intro a b; simp only [Bool.or_eq_true, decide_eq_true_eq]; omega)
      (w.old.filter fun r => r.number == n)
    refine this.imp ?_
    intro a b k
    simpa using k
  · exact List.pairwise_le_range
  · refine ((rowsOf_perm w n).map _).trans ?_
    rw [(rowsOf_perm w n).length_eq]
    exact h.dense n

theorem rowsOf_at {w : World E} (h : OldOk w) {n i : Nat} {r : OldRow E} (e : (w.rowsOf n)[i]? = some r) : r.idx = i := by
  have h1 : ((w.rowsOf n).map (·.idx))[i]? = some r.idx := by simp [e]
  rw [rowsOf_idx h] at h1
  obtain ⟨h2, h3⟩ := List.getElem?_eq_some_iff.1 h1
  simpa using h3.symm

theorem decodeAll_some {A : Type} {f : E → Option A} : ∀ {l : List E} {m : List A}, decodeAll f l = some m →
    m.length = l.length ∧ ∀ i : Nat, m[i]? = (l[i]?).bind f
  | [], m, e => by cases e; simp
  | x :: l, m, e => by
    rw [decodeAll] at e
    obtain ⟨a, h1, e⟩ := Option.bind_eq_some_iff.1 e
    obtain ⟨as, h2, rfl⟩ := Option.map_eq_some_iff.1 e
    obtain ⟨h3, h4⟩ := decodeAll_some h2
    refine ⟨by simp [h3], ?_⟩
    intro i
    cases i with
    | zero => simp [h1]
    | succ i => simpa using h4 i

theorem decodeAll_none {A : Type} {f : E → Option A} : ∀ {l : List E}, decodeAll f l = none ↔ ∃ x ∈ l, f x = none
  | [] => by simp [decodeAll]
  | x :: l => by
    rw [decodeAll]
    rcases hx : f x with _ | a
    · simp [hx]
    · simp [hx, decodeAll_none (l := l)]

theorem regroup_none {w : World E} {n : Nat} : regroup w (job w n) = none ↔ Bad w n := by
  unfold regroup
  rw [Option.map_eq_none_iff, decodeAll_none]
  simp only [job, List.mem_map]
  constructor
  · rintro ⟨_, ⟨r, hr, rfl⟩, h⟩
    exact ⟨r, (mem_rowsOf.1 hr).1, (mem_rowsOf.1 hr).2, h⟩
  · rintro ⟨r, h1, h2, h3⟩
    exact ⟨_, ⟨r, mem_rowsOf.2 ⟨h1, h2⟩, rfl⟩, h3⟩

theorem regroup_number {w : World E} {j : Job E} {r : Row} (e : regroup w j = some r) : r.number = j.number := by
  unfold regroup at e
  obtain ⟨l, -, rfl⟩ := Option.map_eq_some_iff.1 e
  rfl

theorem regroup_length {w : World E} {j : Job E} {r : Row} (e : regroup w j = some r) : r.transactions.length = j.rows.length := by
  unfold regroup at e
  obtain ⟨l, h, rfl⟩ := Option.map_eq_some_iff.1 e
  simp [(decodeAll_some h).1]

/-- The hashes of the rows of some blocks are distinct. -/
theorem hashes_nodup {w : World E} (h : OldOk w) {l : List Nat} (hl : l.Nodup) : ((l.flatMap (index w)).map (·.1)).Nodup := by
  rw [List.map_flatMap]
  unfold List.Nodup
  rw [List.pairwise_flatMap]
  constructor
  · intro n _
    have : ((index w n).map (·.1)) = (w.rowsOf n).map (·.hash) := by simp [index]
    rw [this]
    have hf := (rowsOf_perm w n).map (·.hash)
    exact hf.nodup_iff.2 (h.hashes.sublist (List.filter_sublist.map _))
  · refine hl.imp ?_
    intro a b hab x hx y hy e
    simp only [index, List.map_map, List.mem_map, Function.comp] at hx hy
    obtain ⟨r, hr, rfl⟩ := hx
    obtain ⟨r', hr', rfl⟩ := hy
    obtain ⟨g1, g2⟩ := mem_rowsOf.1 hr
    obtain ⟨g1', g2'⟩ := mem_rowsOf.1 hr'
    have := inj_of_nodup h.hashes g1 g1' e
    subst this
    exact hab (g2.symm.trans g2')

theorem filter_index (w : World E) (n : Nat) : ∀ {l : List Nat}, l.Nodup →
    (l.flatMap (index w)).filter (fun r => r.2.1 == n) = if n ∈ l then index w n else []
  | [], _ => rfl
  | m :: l, hd => by
    rw [List.nodup_cons] at hd
    rw [List.flatMap_cons, List.filter_append, filter_index w n hd.2]
    by_cases hm : m = n
    · subst hm
      rw [if_neg hd.1, if_pos (by simp), List.append_nil, List.filter_eq_self]
      intro r hr
      simp only [index, List.mem_map] at hr
      obtain ⟨x, -, rfl⟩ := hr
      simp
    · have : (index w m).filter (fun r => r.2.1 == n) = [] := by
        rw [List.filter_eq_nil_iff]
        intro r hr
        simp only [index, List.mem_map] at hr
        obtain ⟨x, -, rfl⟩ := hr
        simpa using hm
      rw [this, List.nil_append]
      have hmn : n ≠ m := fun k => hm k.symm
      simp [hmn]

/-- The number of old rows that belong to some blocks. -/
theorem count_rows (w : World E) : ∀ {l : List Nat}, l.Nodup →
    (l.map fun n => (w.rowsOf n).length).sum = (w.old.filter fun r => l.contains r.number).length
  | [], _ => by
    have : (w.old.filter fun r => ([] : List Nat).contains r.number) = [] := by
      rw [List.filter_eq_nil_iff]
      intro r _
      simp
    rw [this]; rfl
  | m :: l, hd => by
    rw [List.nodup_cons] at hd
    rw [List.map_cons, List.sum_cons, count_rows w hd.2, (rowsOf_perm w m).length_eq]
    induction w.old with
    | nil => rfl
    | cons r o ih =>
      by_cases h1 : r.number = m
      · have h2 : l.contains r.number = false := by
          rw [h1]; simpa using hd.1
        have h3 : (m :: l).contains r.number = true := by simp [h1]
        have h4 : (r.number == m) = true := by simpa using h1
        rw [List.filter_cons, List.filter_cons, List.filter_cons, h2, h3, h4]
        simp only [if_true, Bool.false_eq_true, if_false, List.length_cons]
        omega
      · have h4 : (r.number == m) = false := by simpa using h1
        have h5 : (m :: l).contains r.number = l.contains r.number := by
          simp [h1]
        rw [List.filter_cons, List.filter_cons, List.filter_cons, h4, h5]
        by_cases h6 : l.contains r.number = true
        · rw [h6]
          simp only [if_true, Bool.false_eq_true, if_false, List.length_cons]
          omega
        · rw [Bool.not_eq_true] at h6
          rw [h6]
          simp only [Bool.false_eq_true, if_false]
          exact ih

/-- All is stored: what the tables hold when nothing is under way. -/
structure All (w : World E) (db : DB) : Prop where
  headers : db.headers = w.headers
  hashes : db.hashes = w.numbers.flatMap (index w)
  rows : ∃ l, (w.numbers.map (job w)).Perm l ∧ l.map (regroup w) = db.rows.map some

theorem job_number (w : World E) (l : List Nat) : (l.map (job w)).map (·.number) = l := by
  rw [List.map_map]
  have : ((fun j : Job E => j.number) ∘ job w) = id := by funext n; rfl
  rw [this, List.map_id]

theorem numbers_of {w : World E} : ∀ {l : List (Job E)} {rs : List Row}, l.map (regroup w) = rs.map some → rs.map (·.number) = l.map (·.number)
  | [], rs, e => by
    have : rs = [] := by simpa using e.symm
    rw [this]; rfl
  | j :: l, [], e => by simp at e
  | j :: l, r :: rs, e => by
    simp only [List.map_cons, List.cons.injEq] at e
    simp only [List.map_cons, numbers_of e.2, regroup_number e.1]

theorem lengths_of {w : World E} : ∀ {l : List (Job E)} {rs : List Row}, l.map (regroup w) = rs.map some →
    rs.map (·.transactions.length) = l.map (·.rows.length)
  | [], rs, e => by
    have : rs = [] := by simpa using e.symm
    rw [this]; rfl
  | j :: l, [], e => by simp at e
  | j :: l, r :: rs, e => by
    simp only [List.map_cons, List.cons.injEq] at e
    simp only [List.map_cons, lengths_of e.2, regroup_length e.1]

theorem numbers_nodup {w : World E} (h : OldOk w) : w.numbers.Nodup := (numbers_perm w).nodup_iff.2 h.numbers

theorem all_unique {w : World E} (h : OldOk w) {db : DB} (ha : All w db) : (db.rows.map (·.number)).Nodup ∧ ∀ n, n ∈ db.rows.map (·.number) ↔ n ∈ w.numbers := by
  obtain ⟨l, h1, h2⟩ := ha.rows
  rw [numbers_of h2]
  have hp := h1.map (·.number)
  rw [job_number] at hp
  exact ⟨hp.nodup_iff.1 (numbers_nodup h), fun n => hp.mem_iff.symm⟩

theorem all_row {w : World E} (h : OldOk w) {db : DB} (ha : All w db) {n : Nat} (hn : n ∈ w.numbers) : ∃ r, db.row n = some r ∧ regroup w (job w n) = some r := by
  obtain ⟨l, h1, h2⟩ := ha.rows
  have hm : job w n ∈ l := h1.mem_iff.1 (List.mem_map_of_mem hn)
  have hm' : regroup w (job w n) ∈ db.rows.map some := by
    rw [← h2]
    exact List.mem_map_of_mem hm
  obtain ⟨r, hr, e⟩ := List.mem_map.1 hm'
  refine ⟨r, ?_, e.symm⟩
  have hk := regroup_number e.symm
  have : r.number = n := hk
  unfold DB.row
  rw [← this]
  exact Verif.Body.row_of_mem (all_unique h ha).1 hr

theorem header_some {w : World E} {db : DB} (e : db.headers = w.headers) {n : Nat} : (∃ x, db.header n = some x) ↔ n ∈ w.numbers := by
  unfold DB.header
  rw [e, mem_numbers]
  constructor
  · rintro ⟨x, hx⟩
    exact ⟨x, List.mem_of_find?_eq_some hx, by simpa using List.find?_some hx⟩
  · rintro ⟨x, hx, hn⟩
    apply Option.isSome_iff_exists.1
    rw [List.find?_isSome]
    exact ⟨x, hx, by simpa using hn⟩

/-- What is stored for a block. -/
theorem all_block {w : World E} (h : OldOk w) {db : DB} (ha : All w db) {n : Nat} (hn : n ∈ w.numbers) :
    ∃ l, db.row n = some ⟨n, l.map (·.1), some (l.map (·.2))⟩ ∧ decodeAll w.decode ((w.rowsOf n).map (·.body)) = some l := by
  obtain ⟨r, h1, h2⟩ := all_row h ha hn
  unfold regroup at h2
  obtain ⟨l, h3, rfl⟩ := Option.map_eq_some_iff.1 h2
  exact ⟨l, h1, h3⟩

theorem decoded_at {w : World E} {n : Nat} {l : List ((Tx × Receipt) × List Event)} (e : decodeAll w.decode ((w.rowsOf n).map (·.body)) = some l) (i : Nat) :
    l[i]? = ((w.rowsOf n)[i]?).bind fun r => w.decode r.body := by
  rw [(decodeAll_some e).2 i, List.getElem?_map]
  cases (w.rowsOf n)[i]? <;> rfl

theorem decoded_hash {w : World E} (h : OldOk w) {n : Nat} {l : List ((Tx × Receipt) × List Event)}
    (e : decodeAll w.decode ((w.rowsOf n).map (·.body)) = some l) : l.map (·.1.1.hash) = (w.rowsOf n).map (·.hash) := by
  apply List.ext_getElem?
  intro i
  rw [List.getElem?_map, List.getElem?_map, decoded_at e]
  rcases hr : (w.rowsOf n)[i]? with _ | r
  · rfl
  · simp only [Option.bind_some, Option.map_some]
    have hm : r ∈ w.rowsOf n := List.mem_of_getElem? hr
    have hl : i < l.length := by
      rw [(decodeAll_some e).1, List.length_map]
      exact (List.getElem?_eq_some_iff.1 hr).1
    have hd := decoded_at e i
    rw [hr, List.getElem?_eq_getElem hl] at hd
    simp only [Option.bind_some] at hd
    rw [← hd]
    simp only [Option.map_some, Option.some.injEq]
    exact h.hash r (mem_rowsOf.1 hm).1 _ hd.symm

theorem all_core {w : World E} (h : OldOk w) {db : DB} (ha : All w db) : Verif.Body.Core db := by
  refine ⟨?_, ?_, ?_, ?_, (all_unique h ha).1⟩
  · rw [ha.hashes]
    exact hashes_nodup h (numbers_nodup h)
  · intro n
    rw [ha.hashes, filter_index w n (numbers_nodup h)]
    unfold DB.keys
    by_cases hn : n ∈ w.numbers
    · obtain ⟨l, h1, h2⟩ := all_block h ha hn
      rw [if_pos hn, h1]
      simp only [Option.elim_some, List.map_map]
      have h3 : l.map ((fun t : Tx × Receipt => t.1.hash) ∘ fun t => t.1) = (w.rowsOf n).map (·.hash) := decoded_hash h h2
      rw [h3]
      apply List.ext_getElem?
      intro i
      simp only [index, List.map_map, List.getElem?_map, List.getElem?_zipIdx]
      rcases hr : (w.rowsOf n)[i]? with _ | r
      · rfl
      · simp [rowsOf_at h hr]
    · rw [if_neg hn]
      have : db.row n = none := by
        rw [Verif.Body.row_none]
        intro r hr k
        exact hn ((all_unique h ha).2 n |>.1 (List.mem_map.2 ⟨r, hr, k⟩))
      rw [this]
      rfl
  · intro r hr
    exact Option.isSome_iff_exists.2 ((header_some ha.headers).2 ((all_unique h ha).2 _ |>.1 (List.mem_map_of_mem hr)))
  · intro r hr es he
    have hn := (all_unique h ha).2 _ |>.1 (List.mem_map_of_mem (f := (·.number)) hr)
    obtain ⟨l, h1, -⟩ := all_block h ha hn
    have h2 : db.row r.number = some r := Verif.Body.row_of_mem (all_unique h ha).1 hr
    rw [h1] at h2
    rw [← Option.some.inj h2] at he ⊢
    simp only [Option.mem_def, Option.some.injEq] at he
    rw [← he]
    simp

/-- What is read of a block at the end. -/
theorem all_reads {w : World E} (h : OldOk w) {db : DB} (ha : All w db) {n : Nat} (hn : n ∈ w.numbers) :
    ∃ l, Verif.Body.Reads db n l ∧ ∀ i t, l[i]? = some t ↔ At w n i t := by
  obtain ⟨l, h1, h2⟩ := all_block h ha hn
  obtain ⟨x, hx⟩ := (header_some ha.headers).2 hn
  refine ⟨l, Verif.Body.reads_core (all_core h ha) hx (by rw [h1]; rfl) (by rw [h1]; rfl), ?_⟩
  intro i t
  rw [decoded_at h2, Option.bind_eq_some_iff]
  constructor
  · rintro ⟨r, hr, e⟩
    obtain ⟨g1, g2⟩ := mem_rowsOf.1 (List.mem_of_getElem? hr)
    exact ⟨r, g1, g2, rowsOf_at h hr, e⟩
  · rintro ⟨r, g1, g2, g3, e⟩
    obtain ⟨k, hk⟩ := List.mem_iff_getElem?.1 (mem_rowsOf.2 ⟨g1, g2⟩)
    have := rowsOf_at h hk
    have hik : i = k := g3.symm.trans this
    rw [hik]
    exact ⟨r, hk, e⟩

theorem all_count {w : World E} (h : OldOk w) {db : DB} (ha : All w db) :
    (db.rows.map (·.transactions.length)).sum = (w.old.filter fun r => w.numbers.contains r.number).length := by
  obtain ⟨l, h1, h2⟩ := ha.rows
  rw [lengths_of h2, ← count_rows w (numbers_nodup h)]
  have := (h1.map (·.rows.length)).sum_nat
  rw [← this, List.map_map]
  congr 1
  apply List.map_congr_left
  intro n _
  simp [job]

end Verif.Regroup
