import Verif.Body.Props
import Verif.Block.BodyProps
/-!
# Lemmas for the stages
-/
namespace Verif.Body
open Verif.Block (F Tx Receipt Event Hashes transactionCommitment eventCommitment flatEvents before v0132)
open Verif.Common (Version)

theorem not_before (v : Version) : before (atLeast0132 v) v0132 = false := by
  unfold atLeast0132
  split
  · decide
  · rename_i hv
    simpa using hv

/-- The events of the transactions, one after the other, are those received, if each is of one of them. -/
theorem grouped_perm : ∀ (hs : List F) (events : List (F × Event)), hs.Nodup → (∀ p ∈ events, p.1 ∈ hs) →
    (flatEvents (hs.map fun x => (x, eventsOf events x))).Perm events
  | [], events, _, h => by
    cases events with
    | nil => exact List.Perm.refl _
    | cons p l => exact absurd (h p List.mem_cons_self) (by simp)
  | x :: hs, events, hd, h => by
    rw [List.nodup_cons] at hd
    have e1 : flatEvents ((x :: hs).map fun y => (y, eventsOf events y)) =
        (eventsOf events x).map (Prod.mk x) ++ flatEvents (hs.map fun y => (y, eventsOf events y)) := List.flatMap_cons
    have e2 : (eventsOf events x).map (Prod.mk x) = events.filter (fun p => p.1 == x) := by
      unfold eventsOf
      rw [List.map_map]
      conv => rhs; rw [← List.map_id (events.filter _)]
      apply List.map_congr_left
      intro p hp
      have := (List.mem_filter.1 hp).2
      simp only [beq_iff_eq] at this
      simp [← this]
    have e3 : (hs.map fun y => (y, eventsOf events y)) = hs.map fun y => (y, eventsOf (events.filter (fun p => !(p.1 == x))) y) := by
      apply List.map_congr_left
      intro y hy
      have : y ≠ x := fun k => hd.1 (k ▸ hy)
      unfold eventsOf
      rw [List.filter_filter]
      congr 2
      apply List.filter_congr
      intro p _
      by_cases hp : p.1 = y
      · simp [hp, this]
      · simp [hp]
    rw [e1, e2, e3]
    refine List.Perm.trans ?_ (List.filter_append_perm (fun p => p.1 == x) events)
    apply List.Perm.append_left
    refine grouped_perm hs _ hd.2 ?_
    intro p hp
    obtain ⟨hp, hx⟩ := List.mem_filter.1 hp
    rcases List.mem_cons.1 (h p hp) with k | k
    · simp [k] at hx
    · exact k

/-- Transactions without events make no difference to the list of events. -/
theorem flat_filter (hs : List F) (events : List (F × Event)) :
    flatEvents ((hs.filter fun x => !(eventsOf events x).isEmpty).map fun x => (x, eventsOf events x)) =
      flatEvents (hs.map fun x => (x, eventsOf events x)) := by
  induction hs with
  | nil => rfl
  | cons x hs ih =>
    have e1 : ∀ (a : F × List Event) l, flatEvents (a :: l) = a.2.map (Prod.mk a.1) ++ flatEvents l := fun _ _ => List.flatMap_cons
    rw [List.filter_cons]
    split
    · rw [List.map_cons, List.map_cons, e1, e1, ih]
    · rename_i hx
      rw [List.map_cons, e1, ih]
      have : eventsOf events x = [] := by simpa using hx
      simp [this]

/-- With as many keys as transactions that have events, each event is of a transaction. -/
theorem keys_subset {hs : List F} {events : List (F × Event)} (hd : hs.Nodup)
    (e : (hs.filter fun x => !(eventsOf events x).isEmpty).length = keyCount events) : ∀ p ∈ events, p.1 ∈ hs := by
  intro p hp
  apply Classical.byContradiction
  intro hn
  have hsub : p.1 :: (hs.filter fun x => !(eventsOf events x).isEmpty) ⊆ (events.map (·.1)).eraseDups := by
    intro y hy
    rw [List.mem_eraseDups]
    rcases List.mem_cons.1 hy with rfl | hy
    · exact List.mem_map_of_mem hp
    · have h1 := (List.mem_filter.1 hy).2
      have h2 : eventsOf events y ≠ [] := by simpa using h1
      obtain ⟨q, hq⟩ := List.exists_mem_of_ne_nil _ h2
      obtain ⟨r, hr, -⟩ := List.mem_map.1 hq
      obtain ⟨hr, hk⟩ := List.mem_filter.1 hr
      simp only [beq_iff_eq] at hk
      rw [← hk]
      exact List.mem_map_of_mem hr
  have hnd : (p.1 :: (hs.filter fun x => !(eventsOf events x).isEmpty)).Nodup := by
    rw [List.nodup_cons]
    exact ⟨fun k => hn (List.mem_filter.1 k).1, hd.sublist List.filter_sublist⟩
  have := List.Nodup.length_le_of_subset hnd hsub
  unfold keyCount at e
  simp only [List.length_cons] at this
  omega

theorem verifyTransactions_ok {h : Hashes} {hdr : Hdr} {txs : List (Tx × Receipt)} (e : verifyTransactions h hdr txs = true) :
    transactionCommitment h (txs.map (·.1)) (atLeast0132 hdr.version) = .ok hdr.transactionCommitment := by
  unfold verifyTransactions at e
  split at e
  · rename_i c hc
    rw [hc]
    simp only [beq_iff_eq] at e
    rw [e]
  · cases e

theorem verifyEvents_ok {h : Hashes} {hdr : Hdr} {es : List (F × List Event)} (e : verifyEvents h hdr es = true) :
    eventCommitment h es (atLeast0132 hdr.version) = .ok hdr.eventCommitment := by
  unfold verifyEvents at e
  split at e
  · rename_i c hc
    rw [hc]
    simp only [beq_iff_eq] at e
    rw [e]
  · cases e

/-- What `storeBlock` checks. -/
theorem storeBlock_some {h : Hashes} {db db' : DB} {hdr : Hdr} {txs : List (Tx × Receipt)} {events : List (F × Event)} :
    storeBlock h db hdr txs events = some db' ↔
    txs.length = hdr.transactionCount ∧ events.length = hdr.eventCount ∧ verifyTransactions h hdr (txs.map withHash) = true ∧
    verifyTracked h hdr (txs.map (·.1.hash)) events = true ∧
    ∃ db1, db.insertHeader hdr = some db1 ∧ db1.insertData hdr.number (txs.map withHash) (some (txs.map fun p => eventsOf events p.1.hash)) = some db' := by
  unfold storeBlock
  by_cases h1 : txs.length ≠ hdr.transactionCount ∨ events.length ≠ hdr.eventCount
  · rw [if_pos h1]
    constructor
    · intro k; cases k
    · rintro ⟨k1, k2, -⟩
      rcases h1 with h1 | h1 <;> contradiction
  · rw [if_neg h1]
    simp only [not_or, Decidable.not_not] at h1
    by_cases h2 : verifyTransactions h hdr (txs.map withHash) = true
    · by_cases h3 : verifyTracked h hdr (txs.map (·.1.hash)) events = true
      · simp only [h2, h3, Bool.not_true, Bool.false_eq_true, if_false]
        constructor
        · intro k
          obtain ⟨db1, k1, k2⟩ := Option.bind_eq_some_iff.1 k
          exact ⟨h1.1, h1.2, trivial, trivial, db1, k1, k2⟩
        · rintro ⟨-, -, -, -, db1, k1, k2⟩
          rw [k1]; exact k2
      · simp [h2, h3]
    · simp [h2]

theorem map_withHash (txs : List (Tx × Receipt)) : (txs.map withHash).map (·.1) = txs.map (·.1) := by
  rw [List.map_map]; rfl

theorem insertHashes_nodup {n : Nat} : ∀ {l : List F} {i : Nat} {t t' : List (F × Nat × Nat)}, insertHashes n i l t = some t' → l.Nodup
  | [], _, _, _, _ => List.nodup_nil
  | x :: l, i, t, t', e => by
    have e0 := e
    rw [insertHashes] at e
    by_cases hx : (t.any fun r => r.1 == x) = true
    · rw [if_pos hx] at e
      cases e
    · rw [if_neg hx] at e
      rw [List.nodup_cons]
      refine ⟨?_, insertHashes_nodup e⟩
      intro hm
      have key : ∀ {l : List F} {i : Nat} {t t' : List (F × Nat × Nat)}, insertHashes n i l t = some t' → x ∈ l → ∀ r ∈ t, r.1 ≠ x := by
        intro l
        induction l with
        | nil => intro _ _ _ _ hm; simp at hm
        | cons y l ih =>
          intro i t t' e hm r hr
          rw [insertHashes] at e
          by_cases hy : (t.any fun r => r.1 == y) = true
          · rw [if_pos hy] at e; cases e
          · rw [if_neg hy] at e
            rcases List.mem_cons.1 hm with rfl | hm
            · simp only [List.any_eq_true, beq_iff_eq, not_exists, not_and] at hy
              exact hy r hr
            · exact ih e hm r (List.mem_append_left _ hr)
      exact key e hm (x, n, i) (by simp) rfl

/-- A stored list has different hashes. -/
theorem insertData_nodup {db db' : DB} {n : Nat} {txs : List (Tx × Receipt)} {events : Option (List (List Event))}
    (e : db.insertData n txs events = some db') : (txs.map (·.1.hash)).Nodup := by
  obtain ⟨-, ⟨rfl, -⟩ | ⟨-, -, -, -, k⟩⟩ := insertData_cases e
  · simp
  · exact insertHashes_nodup k

/-- Whether a body can be stored depends on the hashes of its transactions only. -/
theorem insertData_again {db db' : DB} {n : Nat} {txs txs' : List (Tx × Receipt)} {events : Option (List (List Event))}
    (e : db.insertData n txs events = some db') (hk : txs'.map (·.1.hash) = txs.map (·.1.hash)) (hem : txs'.isEmpty = txs.isEmpty) :
    ∃ db'', db.insertData n txs' events = some db'' := by
  unfold DB.insertData at e ⊢
  simp only at e ⊢
  rw [hk, hem]
  generalize (if events.isSome then { db with nextEvents := n + 1 } else db) = d at e ⊢
  by_cases h1 : (txs.isEmpty && events.all (·.isEmpty)) = true
  · rw [if_pos h1]; exact ⟨_, rfl⟩
  · rw [if_neg h1] at e ⊢
    by_cases h2 : ((d.header n).isNone || d.rows.any fun r => r.number == n) = true
    · rw [if_pos h2] at e; cases e
    · rw [if_neg h2] at e ⊢
      obtain ⟨t, ht, -⟩ := Option.map_eq_some_iff.1 e
      rw [ht]
      exact ⟨_, rfl⟩

end Verif.Body
