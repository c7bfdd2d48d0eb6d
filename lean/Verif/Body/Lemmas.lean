import Verif.Body.Spec
/-!
# Invariants of the tables
-/
namespace Verif.Body
open Verif.Block (F Tx Receipt Event)

/-- The hashes of the transactions of a block. -/
def DB.keys (db : DB) (n : Nat) : List F := (db.row n).elim [] fun r => r.transactions.map (·.1.hash)

structure Inv (db : DB) : Prop where
  nodup : (db.hashes.map (·.1)).Nodup
  index : ∀ n, ((db.hashes.filter fun r => r.2.1 == n).map fun r => (r.1, r.2.2)) = (db.keys n).zipIdx
  header : ∀ r ∈ db.rows, (db.header r.number).isSome
  full : ∀ r ∈ db.rows, r.transactions ≠ []
  aligned : ∀ r ∈ db.rows, ∀ es ∈ r.events, es.length = r.transactions.length
  unique : (db.rows.map (·.number)).Nodup

/-- The invariant without the clause about empty rows, which migrated databases have (`Verif/Regroup`). -/
structure Core (db : DB) : Prop where
  nodup : (db.hashes.map (·.1)).Nodup
  index : ∀ n, ((db.hashes.filter fun r => r.2.1 == n).map fun r => (r.1, r.2.2)) = (db.keys n).zipIdx
  header : ∀ r ∈ db.rows, (db.header r.number).isSome
  aligned : ∀ r ∈ db.rows, ∀ es ∈ r.events, es.length = r.transactions.length
  unique : (db.rows.map (·.number)).Nodup

theorem Inv.core {db : DB} (hi : Inv db) : Core db := ⟨hi.nodup, hi.index, hi.header, hi.aligned, hi.unique⟩

theorem row_mem {db : DB} {n : Nat} {r : Row} (e : db.row n = some r) : r ∈ db.rows ∧ r.number = n := by
  unfold DB.row at e
  exact ⟨List.mem_of_find?_eq_some e, by simpa using List.find?_some e⟩

theorem row_none {db : DB} {n : Nat} : db.row n = none ↔ ∀ r ∈ db.rows, r.number ≠ n := by
  unfold DB.row
  simp

theorem row_of_mem : ∀ {l : List Row} {r : Row}, (l.map (·.number)).Nodup → r ∈ l → (l.find? fun x => x.number == r.number) = some r
  | x :: l, r, hd, hr => by
    rw [List.map_cons, List.nodup_cons] at hd
    rw [List.find?_cons]
    rcases List.mem_cons.1 hr with rfl | hr
    · simp
    · have : (x.number == r.number) = false := by
        rw [beq_eq_false_iff_ne]
        intro e
        exact hd.1 (e ▸ List.mem_map_of_mem hr)
      rw [this]
      exact row_of_mem hd.2 hr

theorem insertHashes_some {n : Nat} : ∀ {l : List F} {i : Nat} {t t' : List (F × Nat × Nat)}, insertHashes n i l t = some t' →
    t' = t ++ (l.zipIdx i).map (fun p => (p.1, n, p.2)) ∧ ((t.map (·.1)).Nodup → (t'.map (·.1)).Nodup)
  | [], i, t, t', e => by
    cases e
    simp
  | x :: l, i, t, t', e => by
    rw [insertHashes] at e
    by_cases hx : (t.any fun r => r.1 == x) = true
    · rw [if_pos hx] at e
      cases e
    · rw [if_neg hx] at e
      obtain ⟨h1, h2⟩ := insertHashes_some e
      refine ⟨by rw [h1]; simp, fun hd => h2 ?_⟩
      simp only [List.any_eq_true, beq_iff_eq, not_exists, not_and] at hx
      rw [List.map_append, List.nodup_append]
      refine ⟨hd, by simp, ?_⟩
      intro a ha b hb
      obtain ⟨r, hr, rfl⟩ := List.mem_map.1 ha
      simp at hb
      rw [hb]
      exact hx r hr

theorem insertHashes_ok {n : Nat} : ∀ {l : List F} {i : Nat} {t : List (F × Nat × Nat)}, l.Nodup → (∀ x ∈ l, ∀ r ∈ t, r.1 ≠ x) →
    (insertHashes n i l t).isSome
  | [], _, _, _, _ => rfl
  | x :: l, i, t, hd, hn => by
    rw [insertHashes]
    rw [if_neg (by
      rw [List.any_eq_true]
      rintro ⟨r, hr, e⟩
      exact hn x (by simp) r hr (by simpa using e))]
    have hd' := List.nodup_cons.1 hd
    refine insertHashes_ok hd'.2 ?_
    intro y hy r hr
    rcases List.mem_append.1 hr with hr | hr
    · exact hn y (by simp [hy]) r hr
    · simp at hr
      rw [hr]
      intro e
      cases e
      exact hd'.1 hy

/-- An insert either does nothing to the tables or adds a row. -/
theorem insertData_cases {db db' : DB} {n : Nat} {txs : List (Tx × Receipt)} {events : Option (List (List Event))}
    (e : db.insertData n txs events = some db') :
    db'.headers = db.headers ∧
    ((txs = [] ∧ (events = none ∨ events = some []) ∧ db'.rows = db.rows ∧ db'.hashes = db.hashes) ∨
     (¬ (txs = [] ∧ (events = none ∨ events = some [])) ∧ (db.header n).isSome ∧ db.row n = none ∧ db'.rows = db.rows ++ [⟨n, txs, events⟩] ∧
      insertHashes n 0 (txs.map (·.1.hash)) db.hashes = some db'.hashes)) := by
  unfold DB.insertData at e
  simp only at e
  have hd : ∀ f : DB → List Hdr, f = DB.headers → f (if events.isSome then { db with nextEvents := n + 1 } else db) = f db := by
    rintro _ rfl; split <;> rfl
  generalize hdb : (if events.isSome then { db with nextEvents := n + 1 } else db) = db1 at e
  have k1 : db1.headers = db.headers := by rw [← hdb]; split <;> rfl
  have k2 : db1.rows = db.rows := by rw [← hdb]; split <;> rfl
  have k3 : db1.hashes = db.hashes := by rw [← hdb]; split <;> rfl
  have k4 : (txs.isEmpty && events.all (·.isEmpty)) = true ↔ (txs = [] ∧ (events = none ∨ events = some [])) := by
    rcases events with _ | l <;> simp
  by_cases hc : (txs.isEmpty && events.all (·.isEmpty)) = true
  · rw [if_pos hc] at e
    cases e
    exact ⟨k1, .inl ⟨(k4.1 hc).1, (k4.1 hc).2, k2, k3⟩⟩
  · rw [if_neg hc] at e
    by_cases hg : ((db1.header n).isNone || db1.rows.any fun r => r.number == n) = true
    · rw [if_pos hg] at e
      cases e
    · rw [if_neg hg] at e
      obtain ⟨t, ht, rfl⟩ := Option.map_eq_some_iff.1 e
      have k5 : db1.header n = db.header n := by unfold DB.header; rw [k1]
      rw [k5, k2] at hg
      simp only [Bool.or_eq_true, not_or, Bool.not_eq_true, Option.isNone_eq_false_iff] at hg
      refine ⟨k1, .inr ⟨fun k => hc (k4.2 k), hg.1, ?_, ?_, ?_⟩⟩
      · rw [row_none]
        intro r hr hn
        have := hg.2
        rw [List.any_eq_false] at this
        exact this r hr (by simp [hn])
      · simp only [k2]
      · rw [← k3, ht]

theorem row_append {db db' : DB} {r : Row} (hn : db.row r.number = none) (e : db'.rows = db.rows ++ [r]) (m : Nat) :
    db'.row m = if m = r.number then some r else db.row m := by
  unfold DB.row at *
  rw [e, List.find?_append]
  by_cases h : m = r.number
  · subst h
    rw [hn]
    simp
  · simp only [if_neg h]
    have : (r.number == m) = false := by simp; exact fun k => h k.symm
    simp [this]

theorem keys_append {db db' : DB} {r : Row} (hn : db.row r.number = none) (e : db'.rows = db.rows ++ [r]) (m : Nat) :
    db'.keys m = if m = r.number then r.transactions.map (·.1.hash) else db.keys m := by
  unfold DB.keys
  rw [row_append hn e]
  split <;> rfl

theorem inv_congr {db db' : DB} (hi : Inv db) (h1 : db'.headers = db.headers) (h2 : db'.rows = db.rows) (h3 : db'.hashes = db.hashes) : Inv db' := by
  obtain ⟨a, b, c, d, e, f⟩ := hi
  constructor
  · rw [h3]; exact a
  · intro n
    have := b n
    unfold DB.keys DB.row at *
    rw [h3, h2]; exact this
  · unfold DB.header at *
    rw [h1, h2]; exact c
  · rw [h2]; exact d
  · rw [h2]; exact e
  · rw [h2]; exact f

theorem inv_insert {db db' : DB} (hi : Inv db) {n : Nat} {txs : List (Tx × Receipt)} {events : Option (List (List Event))}
    (ha : ∀ es ∈ events, es.length = txs.length) (e : db.insertData n txs events = some db') : Inv db' := by
  obtain ⟨h1, ⟨-, -, h2, h3⟩ | ⟨h0, hh, hr, h2, h3⟩⟩ := insertData_cases e
  · exact inv_congr hi h1 h2 h3
  · obtain ⟨k1, k2⟩ := insertHashes_some h3
    have ht : txs ≠ [] := by
      intro k
      refine h0 ⟨k, ?_⟩
      rcases events with _ | es
      · exact .inl rfl
      · have := ha es rfl
        rw [k] at this
        exact .inr (by rw [List.length_eq_zero_iff.1 this])
    refine ⟨k2 hi.nodup, ?_, ?_, ?_, ?_, ?_⟩
    · intro m
      rw [keys_append (r := ⟨n, txs, events⟩) hr h2, k1, List.filter_append, List.map_append, hi.index m]
      by_cases hm : m = n
      · subst hm
        rw [if_pos rfl]
        have : db.keys m = [] := by unfold DB.keys; rw [hr]; rfl
        rw [this]
        have hf : ((List.zipIdx (List.map (fun p => p.1.hash) txs) 0).map fun p => (p.1, m, p.2)).filter (fun r => r.2.1 == m) =
            (List.zipIdx (List.map (fun p => p.1.hash) txs) 0).map fun p => (p.1, m, p.2) := by
          rw [List.filter_eq_self]
          intro a hp
          obtain ⟨q, -, rfl⟩ := List.mem_map.1 hp
          simp
        rw [hf, List.map_map]
        simp [Function.comp_def]
      · rw [if_neg (by simpa using hm)]
        have hf : ((List.zipIdx (List.map (fun p => p.1.hash) txs) 0).map fun p => (p.1, n, p.2)).filter (fun r => r.2.1 == m) = [] := by
          rw [List.filter_eq_nil_iff]
          intro a hp
          obtain ⟨q, -, rfl⟩ := List.mem_map.1 hp
          simp
          exact fun k => hm k.symm
        rw [hf]
        simp
    · intro r hr'
      rw [h2] at hr'
      have hx : ∀ k, db'.header k = db.header k := by intro k; unfold DB.header; rw [h1]
      rw [hx]
      rcases List.mem_append.1 hr' with g | g
      · exact hi.header r g
      · simp at g
        rw [g]; exact hh
    · intro r hr'
      rw [h2] at hr'
      rcases List.mem_append.1 hr' with g | g
      · exact hi.full r g
      · simp at g
        rw [g]; exact ht
    · intro r hr'
      rw [h2] at hr'
      rcases List.mem_append.1 hr' with g | g
      · exact hi.aligned r g
      · simp at g
        rw [g]; exact ha
    · rw [h2, List.map_append, List.nodup_append]
      refine ⟨hi.unique, by simp, ?_⟩
      intro a ha' b hb
      obtain ⟨r, hr', rfl⟩ := List.mem_map.1 ha'
      simp at hb
      rw [hb]
      exact row_none.1 hr r hr'

theorem row_update (db : DB) (n : Nat) (es : List (List Event)) (m : Nat) :
    (db.updateEvents n es).row m = if m = n then (db.row m).map fun r => { r with events := some es } else db.row m := by
  unfold DB.row DB.updateEvents
  simp only [List.find?_map]
  have hf : ((fun r : Row => r.number == m) ∘ fun r => if r.number = n then { r with events := some es } else r) = fun r : Row => r.number == m := by
    funext r
    simp only [Function.comp]
    split <;> rfl
  rw [hf]
  rcases hr : db.rows.find? fun r => r.number == m with _ | r
  · rw [hr]
    split <;> rfl
  · have : r.number = m := by simpa using List.find?_some hr
    rw [hr, Option.map_some]
    by_cases hn : m = n
    · rw [if_pos (this.trans hn), if_pos hn]; rfl
    · rw [if_neg (fun k => hn (this.symm.trans k)), if_neg hn]

theorem keys_update (db : DB) (n : Nat) (es : List (List Event)) (m : Nat) : (db.updateEvents n es).keys m = db.keys m := by
  unfold DB.keys
  rw [row_update]
  split
  · rcases db.row m with _ | r <;> rfl
  · rfl

theorem row_purge (db : DB) (n m : Nat) : (db.purge n).row m = if m = n then none else db.row m := by
  unfold DB.row DB.purge
  simp only [List.find?_filter]
  split
  · next h =>
    subst h
    rw [List.find?_eq_none]
    intro r _
    simp
  · next h =>
    congr 1
    funext r
    by_cases hr : r.number = m
    · simp [hr, h]
    · simp [hr]

theorem header_purge (db : DB) (n m : Nat) : (db.purge n).header m = if m = n then none else db.header m := by
  unfold DB.header DB.purge
  simp only [List.find?_filter]
  split
  · next h =>
    subst h
    rw [List.find?_eq_none]
    intro r _
    simp
  · next h =>
    congr 1
    funext r
    by_cases hr : r.number = m
    · simp [hr, h]
    · simp [hr]

theorem keys_purge (db : DB) (n m : Nat) : (db.purge n).keys m = if m = n then [] else db.keys m := by
  unfold DB.keys
  rw [row_purge]
  split <;> rfl

theorem header_insert {db db' : DB} {x : Hdr} (e : db.insertHeader x = some db') (m : Nat) :
    db'.header m = if m = x.number then some x else db.header m := by
  unfold DB.insertHeader at e
  split at e
  · cases e
  · cases e
    unfold DB.header
    rw [List.find?_cons]
    by_cases h : x.number = m
    · simp [h]
    · have h' : m ≠ x.number := fun k => h k.symm
      have : (x.number == m) = false := by simpa using h
      rw [this, if_neg h']

theorem insertHeader_rest {db db' : DB} {x : Hdr} (e : db.insertHeader x = some db') : db'.rows = db.rows ∧ db'.hashes = db.hashes := by
  unfold DB.insertHeader at e
  split at e <;> cases e
  exact ⟨rfl, rfl⟩

theorem inv_reach {db : DB} (h : Reach db) : Inv db := by
  induction h with
  | empty k => exact ⟨by simp, by intro n; simp [DB.keys, DB.row], by simp, by simp, by simp, by simp⟩
  | header h x e ih =>
    obtain ⟨h1, h2⟩ := insertHeader_rest e
    refine ⟨by rw [h2]; exact ih.nodup, ?_, ?_, by rw [h1]; exact ih.full, by rw [h1]; exact ih.aligned, by rw [h1]; exact ih.unique⟩
    · intro n
      have := ih.index n
      unfold DB.keys DB.row at *
      rw [h1, h2]; exact this
    · intro r hr
      rw [h1] at hr
      rw [header_insert e]
      split
      · rfl
      · exact ih.header r hr
  | block h n l e ih => exact inv_insert ih (by simp) e
  | transactions h n l e ih => exact inv_insert ih (by simp) e
  | @events db h n es hl ih =>
    refine ⟨ih.nodup, ?_, ?_, ?_, ?_, ?_⟩
    · intro m
      rw [keys_update]
      exact ih.index m
    · intro r hr
      obtain ⟨r', hr', rfl⟩ := List.mem_map.1 hr
      have := ih.header r' hr'
      split <;> exact this
    · intro r hr
      obtain ⟨r', hr', rfl⟩ := List.mem_map.1 hr
      have := ih.full r' hr'
      split <;> exact this
    · intro r hr
      obtain ⟨r', hr', rfl⟩ := List.mem_map.1 hr
      split
      · next hn =>
        intro es' he
        cases he
        have k := row_of_mem ih.unique hr'
        rw [hn] at k
        obtain ⟨hd, hh⟩ := Option.isSome_iff_exists.1 (ih.header r' hr')
        rw [hn] at hh
        exact hl _ (by unfold DB.transactionsFor DB.row; rw [hh, k]; rfl)
      · exact ih.aligned r' hr'
    · have : ((db.updateEvents n es).rows.map (·.number)) = db.rows.map (·.number) := by
        unfold DB.updateEvents
        rw [List.map_map]
        refine List.map_congr_left fun r _ => ?_
        simp only [Function.comp]
        split <;> rfl
      rw [this]
      exact ih.unique
  | @purge db h n ih =>
    refine ⟨?_, ?_, ?_, ?_, ?_, ?_⟩
    · exact ih.nodup.sublist (List.filter_sublist.map _)
    · intro m
      rw [keys_purge]
      have := ih.index m
      unfold DB.purge
      simp only [List.filter_filter]
      split
      · next hm =>
        subst hm
        simp
      · next hm =>
        rw [← this]
        congr 2
        funext r
        by_cases hr : r.2.1 = m
        · simp [hr, hm]
        · simp [hr]
    · intro r hr
      obtain ⟨hr, hn⟩ := List.mem_filter.1 hr
      have hn' : r.number ≠ n := by simpa using hn
      rw [header_purge, if_neg hn']
      exact ih.header r hr
    · intro r hr
      exact ih.full r (List.mem_filter.1 hr).1
    · intro r hr
      exact ih.aligned r (List.mem_filter.1 hr).1
    · exact ih.unique.sublist (List.filter_sublist.map _)
  | restart h ih => exact inv_congr ih rfl rfl rfl

end Verif.Body
