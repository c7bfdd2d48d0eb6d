import Verif.Sync.Checkpoint
import Verif.Sync.HeadersProps

/-! # Lemmas for checkpoint synchronisation -/

namespace Verif.Sync

variable {P H B S : Type}

/-- Equal but for the signature. -/
def Same (r s : Header H B S) : Prop := r.number = s.number ∧ r.hash = s.hash ∧ r.parent = s.parent ∧ r.body = s.body

/-- A chain of blocks with one block per number that passes the hash check. -/
structure Chain [DecidableEq H] (c : Checks H B S) (chain : Nat → Header H B S) : Prop where
  number : ∀ n, (chain n).number = n
  linked : ∀ n, (chain (n + 1)).parent = (chain n).hash
  ok : ∀ n, c.hashOk (chain n) = true

/-- The hash function has no collisions. -/
def Checks.Binding (c : Checks H B S) : Prop :=
  ∀ n p b n' p' b', c.compute n p b = c.compute n' p' b' → n = n' ∧ p = p' ∧ b = b'

theorem same_of_hash [DecidableEq H] {c : Checks H B S} {chain : Nat → Header H B S} (hb : c.Binding) (hc : Chain c chain)
    {r : Header H B S} (hr : c.hashOk r = true) (hh : r.hash = (chain r.number).hash) : Same r (chain r.number) := by
  have h1 := hc.ok r.number
  simp only [Checks.hashOk, decide_eq_true_eq, hc.number] at h1 hr
  rw [← hh, ← hr] at h1
  obtain ⟨-, h2, h3⟩ := hb _ _ _ _ _ _ h1
  exact ⟨(hc.number _).symm, hh, h2.symm, h3.symm⟩

theorem mem_purge {db : Rows H B S} {n : Nat} {r : Header H B S} : r ∈ purgeHeader db n ↔ r ∈ db ∧ r.number ≠ n := by
  simp [purgeHeader]

theorem mem_rollbackLoop {last : Nat} (head : Nat) (db : Rows H B S) {r : Header H B S} :
    r ∈ rollbackLoop last head db ↔ r ∈ db ∧ ¬ (last ≤ r.number ∧ r.number ≤ head) := by
  induction head generalizing db with
  | zero =>
    unfold rollbackLoop
    by_cases h : 0 ≥ last
    · rw [if_pos h, mem_purge]
      constructor <;> rintro ⟨h1, h2⟩ <;> exact ⟨h1, by omega⟩
    · rw [if_neg h]
      constructor
      · intro h1; exact ⟨h1, by omega⟩
      · rintro ⟨h1, -⟩; exact h1
  | succ head ih =>
    unfold rollbackLoop
    by_cases h : head + 1 ≥ last
    · rw [if_pos h, ih, mem_purge]
      constructor
      · rintro ⟨⟨h1, h2⟩, h3⟩; exact ⟨h1, by omega⟩
      · rintro ⟨h1, h2⟩; exact ⟨⟨h1, by omega⟩, by omega⟩
    · rw [if_neg h]
      constructor
      · intro h1; exact ⟨h1, by omega⟩
      · rintro ⟨h1, -⟩; exact h1

theorem mem_upsertL1 {rows : List (Nat × H)} {u a : Nat × H} :
    a ∈ upsertL1 rows u ↔ (a ∈ rows ∧ a.1 ≠ u.1) ∨ a = u := by
  simp [upsertL1]

/-- One header per number. -/
def Unique (db : Rows H B S) : Prop := ∀ r ∈ db, ∀ q ∈ db, r.number = q.number → r = q

theorem insertHeader_some [DecidableEq H] {db db' : Rows H B S} {h : Header H B S} (hi : insertHeader db h = some db') :
    db' = h :: db ∧ (∀ r ∈ db, r.number ≠ h.number) ∧ ∀ r ∈ db, r.hash ≠ h.hash := by
  unfold insertHeader at hi
  split at hi
  · simp at hi
  · rename_i hn
    simp only [Option.some.injEq] at hi
    refine ⟨hi.symm, ?_, ?_⟩
    · intro r hr he
      exact hn (List.any_eq_true.mpr ⟨r, hr, by simp [he]⟩)
    · intro r hr he
      exact hn (List.any_eq_true.mpr ⟨r, hr, by simp [he]⟩)

theorem insertHeader_unique [DecidableEq H] {db db' : Rows H B S} {h : Header H B S} (hi : insertHeader db h = some db')
    (hu : Unique db) : Unique db' := by
  obtain ⟨rfl, h1, -⟩ := insertHeader_some hi
  intro r hr q hq he
  rcases List.mem_cons.mp hr with hr' | hr' <;> rcases List.mem_cons.mp hq with hq' | hq'
  · rw [hr', hq']
  · exact absurd (hr' ▸ he.symm) (h1 q hq')
  · exact absurd (hq' ▸ he) (h1 r hr')
  · exact hu r hr' q hq' he

theorem insertAll_spec [DecidableEq H] (hs : List (Header H B S)) {db db' : Rows H B S} (hi : insertAll db hs = some db') :
    (∀ r, r ∈ db' ↔ r ∈ db ∨ r ∈ hs) ∧ (Unique db → Unique db') := by
  induction hs generalizing db with
  | nil =>
    simp only [insertAll, Option.some.injEq] at hi
    subst hi
    simp
  | cons h hs ih =>
    cases hh : insertHeader db h with
    | none => simp [insertAll, hh] at hi
    | some db₁ =>
      simp only [insertAll, hh, Option.bind_some] at hi
      obtain ⟨h1, h2⟩ := ih hi
      refine ⟨fun r => ?_, fun hu => h2 (insertHeader_unique hh hu)⟩
      rw [h1, (insertHeader_some hh).1]
      simp only [List.mem_cons]
      constructor
      · rintro ((h | h) | h)
        · exact .inr (.inl h)
        · exact .inl h
        · exact .inr (.inr h)
      · rintro (h | h | h)
        · exact .inl (.inr h)
        · exact .inl (.inl h)
        · exact .inr h

theorem persistStream_spec [DecidableEq H] (items : List (Item P (SyncErr P) (List (Header H B S)))) (db : Rows H B S) :
    (∀ r ∈ db, r ∈ (persistStream db items).1) ∧
    (∀ r ∈ (persistStream db items).1, r ∈ db ∨ ∃ p chunk, .ok (p, chunk) ∈ items ∧ r ∈ chunk) ∧
    (Unique db → Unique (persistStream db items).1) := by
  induction items generalizing db with
  | nil => exact ⟨fun r h => h, fun r h => .inl h, fun h => h⟩
  | cons x items ih =>
    cases x with
    | error e => exact ⟨fun r h => h, fun r h => .inl h, fun h => h⟩
    | ok x =>
      obtain ⟨p, chunk⟩ := x
      cases hi : insertAll db chunk with
      | none =>
        simp only [persistStream, persistHeaders, hi]
        exact ⟨fun r h => h, fun r h => .inl h, fun h => h⟩
      | some db' =>
        simp only [persistStream, persistHeaders, hi]
        obtain ⟨h1, h2⟩ := insertAll_spec chunk hi
        obtain ⟨g1, g2, g3⟩ := ih db'
        refine ⟨fun r hr => g1 r ((h1 r).mpr (.inl hr)), fun r hr => ?_, fun hu => g3 (h2 hu)⟩
        rcases g2 r hr with hr | ⟨p', chunk', hm, hr⟩
        · rcases (h1 r).mp hr with hr | hr
          · exact .inl hr
          · exact .inr ⟨p, chunk, by simp, hr⟩
        · exact .inr ⟨p', chunk', by simp [hm], hr⟩

theorem leading_append_error {E α : Type} (xs : List (P × α)) (es : List E) :
    leading (xs.map (Except.ok (ε := E)) ++ es.map Except.error) = xs := by
  induction xs with
  | nil => cases es <;> rfl
  | cons x xs ih => simp [leading, ih]

/-- The values of the chunks are the leading values. -/
theorem chunk_values {E α : Type} (n : Nat) (hn : 0 < n) (xs : List (Item P E α)) (p : P) (chunk : List α)
    (hm : Except.ok (p, chunk) ∈ tryChunks n xs) : ∀ a ∈ chunk, a ∈ (leading xs).map (·.2) := by
  obtain ⟨groups, h1, -, -, h4⟩ := C41_chunks n hn xs
  rw [h4] at hm
  rcases List.mem_append.mp hm with hm | hm
  · obtain ⟨g, hg, he⟩ := List.mem_filterMap.mp hm
    cases hh : g.head? with
    | none => simp [hh] at he
    | some y =>
      simp only [hh, Option.map_some, Option.some.injEq, Except.ok.injEq, Prod.mk.injEq] at he
      intro a ha
      rw [← he.2] at ha
      obtain ⟨z, hz, rfl⟩ := List.mem_map.mp ha
      exact List.mem_map_of_mem (h1 ▸ List.mem_flatten.mpr ⟨g, hg, hz⟩)
  · simp at hm

theorem verify_leading [DecidableEq H] (c : Checks H B S) (xs : List (Item P (SyncErr P) (Header H B S))) :
    ∃ k, leading (pipe c.verify () xs) = (leading xs).take k ∧
      ∀ x ∈ leading (pipe c.verify () xs), c.hashOk x.2 = true := by
  induction xs with
  | nil => exact ⟨0, by simp [pipe, leading]⟩
  | cons x xs ih =>
    cases x with
    | error e => exact ⟨0, by simp [pipe, leading]⟩
    | ok x =>
      obtain ⟨p, x⟩ := x
      cases hh : c.hashOk x with
      | false => exact ⟨0, by simp [pipe, leading, Checks.verify, hh]⟩
      | true =>
        cases hs : c.signed x.signature x.hash with
        | false => exact ⟨0, by simp [pipe, leading, Checks.verify, hh, hs]⟩
        | true =>
          obtain ⟨k, h1, h2⟩ := ih
          refine ⟨k + 1, by simp [pipe, leading, Checks.verify, hh, hs, h1], ?_⟩
          intro y hy
          simp only [pipe, Checks.verify, hh, hs, Bool.true_eq_false, if_false, leading, List.mem_cons] at hy
          rcases hy with rfl | hy
          · exact hh
          · exact h2 y hy

theorem linkedDown_take (n : Nat) (h : H) (ys : List (Header H B S)) (k : Nat) (hl : LinkedDown n h ys) :
    LinkedDown n h (ys.take k) := by
  intro i x hx
  rw [List.getElem?_take] at hx
  by_cases hi : i < k
  · rw [if_pos hi] at hx
    obtain ⟨h1, h2, h3⟩ := hl i x hx
    refine ⟨h1, h2, fun y h0 hy => ?_⟩
    rw [List.getElem?_take, if_pos (by omega)] at hy
    exact h3 y h0 hy
  · rw [if_neg hi] at hx
    simp at hx

/-- What gets through the stages is linked downwards and passes the hash check. -/
theorem accepted_spec [DecidableEq H] (c : Checks H B S) (n : Nat) (h : H) (xs : List (P × Header H B S)) :
    let zs := (leading (pipe c.verify () (pipe backwardContinuity (some n, h) (infallible xs)))).map (·.2)
    LinkedDown n h zs ∧ ∀ z ∈ zs, c.hashOk z = true := by
  obtain ⟨k, -, h2, -, h4⟩ := C39_backward n h xs
  obtain ⟨j, g1, g2⟩ := verify_leading c (pipe backwardContinuity (some n, h) (infallible xs))
  have hl : leading (pipe backwardContinuity (some n, h) (infallible xs)) = xs.take k := by
    rw [h4]
    have := leading_append_error (E := SyncErr P) (xs.take k) (xs[k]?.toList.map fun x => SyncErr.discontinuity x.1)
    rw [List.map_map] at this
    exact this
  refine ⟨?_, ?_⟩
  · rw [g1, hl, List.map_take]
    exact linkedDown_take n h _ j h2
  · intro z hz
    obtain ⟨x, hx, rfl⟩ := List.mem_map.mp hz
    exact g2 x hx

theorem linkedDown_same [DecidableEq H] {c : Checks H B S} {chain : Nat → Header H B S} (hb : c.Binding)
    (hc : Chain c chain) (ys : List (Header H B S)) (n : Nat) (hl : LinkedDown n (chain n).hash ys)
    (ho : ∀ y ∈ ys, c.hashOk y = true) : ∀ y ∈ ys, y.number ≤ n ∧ Same y (chain y.number) := by
  induction ys generalizing n with
  | nil => simp
  | cons x ys ih =>
    obtain ⟨h1, h2, h3⟩ := (linkedDown_cons _ _ _ _).mp hl
    have hx : Same x (chain x.number) := same_of_hash hb hc (ho x (by simp)) (by rw [h1, h2])
    intro y hy
    rcases List.mem_cons.mp hy with rfl | hy
    · exact ⟨by omega, hx⟩
    · rcases h3 with rfl | ⟨h0, h3⟩
      · simp at hy
      · have hp : x.parent = (chain (n - 1)).hash := by
          rw [hx.2.2.1, h1, ← hc.linked (n - 1), show n - 1 + 1 = n by omega]
        rw [hp] at h3
        have := ih (n - 1) h3 (fun z hz => ho z (by simp [hz])) y hy
        exact ⟨by omega, this.2⟩

end Verif.Sync
