import Verif.Body.Lemmas
/-!
# Bodies are read as they were stored (C69)
-/
namespace Verif.Body
open Verif.Block (F Tx Receipt Event)

theorem zip_pairs {α β : Type} (l : List (α × β)) : (l.map (·.1)).zip (l.map (·.2)) = l := by
  induction l with
  | nil => rfl
  | cons a l ih => simp [ih]

theorem infos_core {db : DB} (hi : Core db) (n : Nat) : db.infos n = (db.keys n).zipIdx := by
  unfold DB.infos
  rw [hi.index]
  apply List.mergeSort_of_pairwise
  have : ∀ (l : List F) (k : Nat), (l.zipIdx k).Pairwise fun a b => decide (a.2 ≤ b.2) = true := by
    intro l
    induction l with
    | nil => intro k; simp
    | cons x l ih =>
      intro k
      rw [List.zipIdx_cons, List.pairwise_cons]
      refine ⟨?_, ih _⟩
      intro a ha
      have := List.le_snd_of_mem_zipIdx ha
      simp only [decide_eq_true_eq]
      omega
  exact this _ 0

theorem infos_eq {db : DB} (hi : Inv db) (n : Nat) : db.infos n = (db.keys n).zipIdx := infos_core hi.core n

/-- Reading, from the row. -/
theorem reads_core {db : DB} (hi : Core db) {n : Nat} {hd : Hdr} (hh : db.header n = some hd) {l : List ((Tx × Receipt) × List Event)}
    (ht : (db.row n).elim [] (·.transactions) = l.map (·.1)) (he : ((db.row n).bind (·.events)).getD [] = l.map (·.2)) : Reads db n l := by
  have hk : db.keys n = l.map (·.1.1.hash) := by
    have : db.keys n = ((db.row n).elim [] (·.transactions)).map (·.1.hash) := by
      unfold DB.keys
      rcases db.row n with _ | r <;> rfl
    rw [this, ht, List.map_map]
    rfl
  have htr : db.transactionsFor n = some (l.map (·.1)) := by
    unfold DB.transactionsFor
    rw [hh, ht]
    rfl
  constructor
  · unfold DB.dataFor
    rw [hh, ht, he, zip_pairs]
    rfl
  · exact htr
  · unfold DB.hashesFor
    rw [hh, infos_core hi, hk]
    simp
  · unfold DB.eventsFor
    rw [hh, he, infos_core hi, hk]
    simp
  · intro i
    unfold DB.transactionAt
    rw [htr]
    simp [Function.comp_def]

theorem reads_of_row {db : DB} (hi : Inv db) {n : Nat} {hd : Hdr} (hh : db.header n = some hd) {l : List ((Tx × Receipt) × List Event)}
    (ht : (db.row n).elim [] (·.transactions) = l.map (·.1)) (he : ((db.row n).bind (·.events)).getD [] = l.map (·.2)) : Reads db n l :=
  reads_core hi.core hh ht he

theorem same_of_row {db db' : DB} (hi : Inv db) (hi' : Inv db') {n : Nat} (hh : db.header n = db'.header n) (hr : db.row n = db'.row n) :
    SameReads db db' n := by
  have hk : db.infos n = db'.infos n := by
    rw [infos_eq hi, infos_eq hi']
    unfold DB.keys
    rw [hr]
  have ht : db.transactionsFor n = db'.transactionsFor n := by unfold DB.transactionsFor; rw [hh, hr]
  refine ⟨by unfold DB.dataFor; rw [hh, hr], ht, by unfold DB.hashesFor; rw [hh, hk], by unfold DB.eventsFor; rw [hh, hr, hk], fun i => ?_⟩
  unfold DB.transactionAt
  rw [ht]

/-- C69, writing: a body that is stored for a block without one is what is then read of the block, whichever way it is read; the other blocks read as before. -/
theorem C69_store {db db' : DB} (h : Reach db) {n : Nat} (l : List ((Tx × Receipt) × List Event)) (hn : db.transactionsFor n = some [])
    (e : db.insertData n (l.map (·.1)) (some (l.map (·.2))) = some db') : Reads db' n l ∧ ∀ m, m ≠ n → SameReads db' db m := by
  have hi := inv_reach h
  have hi' := inv_reach (.block h n l e)
  obtain ⟨hd, hh⟩ : ∃ hd, db.header n = some hd := by
    unfold DB.transactionsFor at hn
    rcases hx : db.header n with _ | hd
    · rw [hx] at hn; cases hn
    · exact ⟨hd, rfl⟩
  obtain ⟨h1, ⟨k1, -, h2, h3⟩ | ⟨-, -, hr, h2, -⟩⟩ := insertData_cases e
  · have hl : l = [] := by simpa using k1
    have hx : ∀ m, db'.header m = db.header m := by intro m; unfold DB.header; rw [h1]
    have hy : ∀ m, db'.row m = db.row m := by intro m; unfold DB.row; rw [h2]
    refine ⟨?_, fun m _ => same_of_row hi' hi (hx m) (hy m)⟩
    have hr : db.row n = none := by
      rcases hrn : db.row n with _ | r
      · rfl
      · unfold DB.transactionsFor at hn
        rw [hh, hrn] at hn
        exact absurd (Option.some.inj hn) (hi.full r (row_mem hrn).1)
    refine reads_of_row hi' ((hx n).trans hh) ?_ ?_ <;> rw [hy, hr, hl] <;> rfl
  · have hx : ∀ m, db'.header m = db.header m := by intro m; unfold DB.header; rw [h1]
    have hy := row_append (r := ⟨n, l.map (·.1), some (l.map (·.2))⟩) hr h2
    refine ⟨?_, fun m hm => same_of_row hi' hi (hx m) (by rw [hy m, if_neg hm])⟩
    refine reads_of_row hi' ((hx n).trans hh) ?_ ?_ <;> rw [hy, if_pos rfl] <;> rfl

/-- C69: the same in two steps, as in the sync up to a checkpoint: the transactions first and later the events. -/
theorem C69_events {db : DB} (h : Reach db) {n : Nat} (l : List ((Tx × Receipt) × List Event)) (hn : db.transactionsFor n = some (l.map (·.1))) :
    Reads (db.updateEvents n (l.map (·.2))) n l ∧ ∀ m, m ≠ n → SameReads (db.updateEvents n (l.map (·.2))) db m := by
  have hi := inv_reach h
  have hi' := inv_reach (.events h n (l.map (·.2)) (by intro l' hl'; rw [hn] at hl'; cases hl'; simp))
  obtain ⟨hd, hh⟩ : ∃ hd, db.header n = some hd := by
    unfold DB.transactionsFor at hn
    rcases hx : db.header n with _ | hd
    · rw [hx] at hn; cases hn
    · exact ⟨hd, rfl⟩
  have hx : ∀ m, (db.updateEvents n (l.map (·.2))).header m = db.header m := fun _ => rfl
  refine ⟨?_, fun m hm => same_of_row hi' hi (hx m) (by rw [row_update, if_neg hm])⟩
  have ht : (db.row n).elim [] (·.transactions) = l.map (·.1) := by
    unfold DB.transactionsFor at hn
    rw [hh] at hn
    exact Option.some.inj hn
  refine reads_of_row hi' ((hx n).trans hh) ?_ ?_
  · rw [row_update, if_pos rfl, ← ht]
    rcases db.row n with _ | r <;> rfl
  · rw [row_update, if_pos rfl]
    rcases hr : db.row n with _ | r
    · rw [hr] at ht
      have : l = [] := by simpa using ht.symm
      rw [this]; rfl
    · rfl

/-- C69, reverting: nothing of a reverted block is read any more, and the other blocks read as before. -/
theorem C69_purge {db : DB} (h : Reach db) (n : Nat) :
    ((db.purge n).dataFor n = none ∧ (db.purge n).transactionsFor n = none ∧ (db.purge n).hashesFor n = none ∧
      (db.purge n).eventsFor n = .ok none ∧ ∀ i, (db.purge n).transactionAt n i = none) ∧
    ∀ m, m ≠ n → SameReads (db.purge n) db m := by
  have hh : (db.purge n).header n = none := by rw [header_purge, if_pos rfl]
  refine ⟨⟨?_, ?_, ?_, ?_, ?_⟩, ?_⟩
  · unfold DB.dataFor; rw [hh]; rfl
  · unfold DB.transactionsFor; rw [hh]; rfl
  · unfold DB.hashesFor; rw [hh]; rfl
  · unfold DB.eventsFor; rw [hh]; rfl
  · intro i
    unfold DB.transactionAt DB.transactionsFor; rw [hh]; rfl
  · intro m hm
    exact same_of_row (inv_reach (.purge h n)) (inv_reach h) (by rw [header_purge, if_neg hm]) (by rw [row_purge, if_neg hm])

/-! ## By hash -/

theorem find_unique : ∀ {t : List (F × Nat × Nat)} {r : F × Nat × Nat}, (t.map (·.1)).Nodup → r ∈ t → (t.find? fun x => x.1 == r.1) = some r
  | x :: l, r, hd, hr => by
    rw [List.map_cons, List.nodup_cons] at hd
    rw [List.find?_cons]
    rcases List.mem_cons.1 hr with rfl | hr
    · simp
    · have : (x.1 == r.1) = false := by
        rw [beq_eq_false_iff_ne]
        intro e
        exact hd.1 (e ▸ List.mem_map_of_mem hr)
      rw [this]
      exact find_unique hd.2 hr

/-- The rows of hashes are those of the transactions. -/
theorem hash_core {db : DB} (hi : Core db) (x : F) (n i : Nat) : (x, n, i) ∈ db.hashes ↔ (db.keys n)[i]? = some x := by
  have h1 : (x, n, i) ∈ db.hashes ↔ (x, i) ∈ ((db.hashes.filter fun r => r.2.1 == n).map fun r => (r.1, r.2.2)) := by
    constructor
    · intro h
      exact List.mem_map.2 ⟨_, List.mem_filter.2 ⟨h, by simp⟩, rfl⟩
    · intro h
      obtain ⟨⟨a, b, c⟩, hr, e⟩ := List.mem_map.1 h
      obtain ⟨hr, hb⟩ := List.mem_filter.1 hr
      simp only [beq_iff_eq] at hb
      cases e
      rw [← hb]; exact hr
  rw [h1, hi.index, List.mem_zipIdx_iff_getElem?]

theorem hash_mem {db : DB} (hi : Inv db) (x : F) (n i : Nat) : (x, n, i) ∈ db.hashes ↔ (db.keys n)[i]? = some x := hash_core hi.core x n i

theorem joined_core {db : DB} (hi : Core db) {x : F} {b : Row} {i : Nat} :
    db.joined x = some (b, i) ↔ db.row b.number = some b ∧ (b.transactions[i]?).map (·.1.hash) = some x := by
  constructor
  · intro e
    unfold DB.joined at e
    obtain ⟨r, hr, e⟩ := Option.bind_eq_some_iff.1 e
    obtain ⟨b', hb, e⟩ := Option.map_eq_some_iff.1 e
    cases e
    obtain ⟨y, n, i⟩ := r
    have hm := List.mem_of_find?_eq_some hr
    have hx : y = x := by simpa using List.find?_some hr
    subst hx
    have := (hash_core hi y n i).1 hm
    unfold DB.keys at this
    rw [hb] at this
    refine ⟨by rw [(row_mem hb).2]; exact hb, ?_⟩
    simpa using this
  · rintro ⟨hb, hx⟩
    have hm : (x, b.number, i) ∈ db.hashes := by
      rw [hash_core hi]
      unfold DB.keys
      rw [hb]
      simpa using hx
    unfold DB.joined
    rw [find_unique hi.nodup hm]
    simp [hb]

theorem joined_some {db : DB} (hi : Inv db) {x : F} {b : Row} {i : Nat} :
    db.joined x = some (b, i) ↔ db.row b.number = some b ∧ (b.transactions[i]?).map (·.1.hash) = some x := joined_core hi.core

theorem lookup_core {db : DB} (hi : Core db) (x : F) :
    (∀ n t r, db.transaction x = .ok (some (n, t, r)) ↔ ∃ (l : List (Tx × Receipt)) (i : Nat), db.transactionsFor n = some l ∧ l[i]? = some (t, r) ∧ t.hash = x) ∧
    db.transaction x ≠ .error () := by
  constructor
  · intro n t r
    constructor
    · intro e
      unfold DB.transaction at e
      rcases hj : db.joined x with _ | ⟨b, i⟩
      · rw [hj] at e; cases e
      · rw [hj] at e
        obtain ⟨hb, hx⟩ := (joined_core hi).1 hj
        rcases ht : b.transactions[i]? with _ | ⟨t', r'⟩
        · rw [ht] at hx; cases hx
        · simp only [ht] at e
          cases e
          rw [ht] at hx
          obtain ⟨hd, hh⟩ := Option.isSome_iff_exists.1 (hi.header b (row_mem hb).1)
          refine ⟨b.transactions, i, ?_, ht, Option.some.inj hx⟩
          unfold DB.transactionsFor
          rw [hh, hb]; rfl
    · rintro ⟨l, i, hl, hli, rfl⟩
      unfold DB.transactionsFor at hl
      rcases hb : db.row n with _ | b
      · rw [hb] at hl
        obtain ⟨hd, -, e⟩ := Option.map_eq_some_iff.1 hl
        cases e
        simp at hli
      · rw [hb] at hl
        obtain ⟨hd, -, e⟩ := Option.map_eq_some_iff.1 hl
        have hn := (row_mem hb).2
        have e' : b.transactions = l := e
        have hj : db.joined t.hash = some (b, i) := by
          rw [joined_core hi, hn]
          refine ⟨hb, ?_⟩
          rw [e', hli]; rfl
        unfold DB.transaction
        rw [hj]
        simp only [e', hli, hn]
  · intro e
    unfold DB.transaction at e
    rcases hj : db.joined x with _ | ⟨b, i⟩
    · rw [hj] at e; cases e
    · rw [hj] at e
      obtain ⟨hb, hx⟩ := (joined_core hi).1 hj
      rcases ht : b.transactions[i]? with _ | ⟨t', r'⟩
      · rw [ht] at hx; cases hx
      · simp only [ht] at e
        cases e

/-- C69, by hash: a transaction is found by its hash in exactly the block and with the receipt that reading the block shows; the lookup never fails. -/
theorem C69_lookup {db : DB} (h : Reach db) (x : F) :
    (∀ n t r, db.transaction x = .ok (some (n, t, r)) ↔ ∃ (l : List (Tx × Receipt)) (i : Nat), db.transactionsFor n = some l ∧ l[i]? = some (t, r) ∧ t.hash = x) ∧
    db.transaction x ≠ .error () :=
  lookup_core (inv_reach h).core x

theorem receipt_core {db : DB} (hi : Core db) (x : F) :
    (∀ n t r e, db.withReceipt x = .ok (some (n, t, r, e)) ↔ ∃ (l : List ((Tx × Receipt) × List Event)) (i : Nat), db.dataFor n = some l ∧ l[i]? = some ((t, r), e) ∧ t.hash = x) ∧
    (db.withReceipt x = .error () → ∃ n l t r, db.transaction x = .ok (some (n, t, r)) ∧ db.transactionsFor n = some l ∧ l ≠ [] ∧ db.dataFor n = some []) := by
  have data : ∀ {b : Row}, db.row b.number = some b → db.dataFor b.number = some (b.transactions.zip (b.events.getD [])) := by
    intro b hb
    obtain ⟨hd, hh⟩ := Option.isSome_iff_exists.1 (hi.header b (row_mem hb).1)
    unfold DB.dataFor
    rw [hh, hb]; rfl
  constructor
  · intro n t r e
    constructor
    · intro k
      unfold DB.withReceipt at k
      rcases hj : db.joined x with _ | ⟨b, i⟩
      · rw [hj] at k; cases k
      · rw [hj] at k
        obtain ⟨hb, hx⟩ := (joined_core hi).1 hj
        rcases ht : b.transactions[i]? with _ | ⟨t', r'⟩
        · rw [ht] at hx; cases hx
        · rw [ht] at hx
          rcases he : b.events with _ | es
          · simp only [ht, he] at k; cases k
          · rcases hei : es[i]? with _ | e'
            · simp only [ht, he, Option.bind_some, hei] at k; cases k
            · simp only [ht, he, Option.bind_some, hei] at k
              cases k
              refine ⟨_, i, data hb, ?_, Option.some.inj hx⟩
              rw [he, Option.getD_some, List.getElem?_zip_eq_some]
              exact ⟨ht, hei⟩
    · rintro ⟨l, i, hl, hli, rfl⟩
      rcases hb : db.row n with _ | b
      · unfold DB.dataFor at hl
        rw [hb] at hl
        obtain ⟨hd, -, e⟩ := Option.map_eq_some_iff.1 hl
        cases e
        simp at hli
      · have hn := (row_mem hb).2
        subst hn
        rw [data hb] at hl
        cases hl
        obtain ⟨h1, h2⟩ := List.getElem?_zip_eq_some.1 hli
        have hj : db.joined t.hash = some (b, i) := (joined_core hi).2 ⟨hb, by rw [h1]; rfl⟩
        unfold DB.withReceipt
        rw [hj]
        rcases he : b.events with _ | es
        · rw [he] at h2; simp at h2
        · rw [he, Option.getD_some] at h2
          simp only [h1, Option.bind_some, h2, he]
  · intro k
    unfold DB.withReceipt at k
    rcases hj : db.joined x with _ | ⟨b, i⟩
    · rw [hj] at k; cases k
    · rw [hj] at k
      obtain ⟨hb, hx⟩ := (joined_core hi).1 hj
      rcases ht : b.transactions[i]? with _ | ⟨t', r'⟩
      · rw [ht] at hx; cases hx
      · rcases he : b.events with _ | es
        · obtain ⟨hd, hh⟩ := Option.isSome_iff_exists.1 (hi.header b (row_mem hb).1)
          refine ⟨b.number, b.transactions, t', r', ?_, ?_, fun k0 => by rw [k0] at ht; simp at ht, ?_⟩
          · unfold DB.transaction
            rw [hj]
            simp only [ht]
          · unfold DB.transactionsFor; rw [hh, hb]; rfl
          · rw [data hb, he]; simp
        · exfalso
          have hl := hi.aligned b (row_mem hb).1 es he
          have : i < b.transactions.length := (List.getElem?_eq_some_iff.1 ht).1
          rw [← hl] at this
          simp only [ht, he, Option.bind_some, List.getElem?_eq_getElem this] at k
          cases k

/-- C69, by hash with events: the events found with a transaction are those that reading the block shows. The lookup fails only while the events of the
block are missing. -/
theorem C69_receipt {db : DB} (h : Reach db) (x : F) :
    (∀ n t r e, db.withReceipt x = .ok (some (n, t, r, e)) ↔ ∃ (l : List ((Tx × Receipt) × List Event)) (i : Nat), db.dataFor n = some l ∧ l[i]? = some ((t, r), e) ∧ t.hash = x) ∧
    (db.withReceipt x = .error () → ∃ n l t r, db.transaction x = .ok (some (n, t, r)) ∧ db.transactionsFor n = some l ∧ l ≠ [] ∧ db.dataFor n = some []) :=
  receipt_core (inv_reach h).core x

/-- C69: a hash is that of at most one transaction of one block. -/
theorem C69_unique {db : DB} (h : Reach db) {n n' i i' : Nat} {l l' : List (Tx × Receipt)} (hl : db.transactionsFor n = some l)
    (hl' : db.transactionsFor n' = some l') {p p' : Tx × Receipt} (hp : l[i]? = some p) (hp' : l'[i']? = some p') (e : p.1.hash = p'.1.hash) :
    n = n' ∧ i = i' := by
  have hi := inv_reach h
  have key : ∀ {n i : Nat} {l : List (Tx × Receipt)} {p : Tx × Receipt}, db.transactionsFor n = some l → l[i]? = some p → (p.1.hash, n, i) ∈ db.hashes := by
    intro n i l p hl hp
    rw [hash_mem hi]
    unfold DB.transactionsFor at hl
    obtain ⟨hd, -, e⟩ := Option.map_eq_some_iff.1 hl
    unfold DB.keys
    rcases hb : db.row n with _ | b
    · rw [hb] at e
      cases e
      simp at hp
    · rw [hb] at e
      have e' : b.transactions = l := e
      simp [e', hp]
  have k := key hl hp
  have k' := key hl' hp'
  have f := find_unique hi.nodup k
  have f' := find_unique hi.nodup k'
  simp only [e] at f
  simp only at f'
  rw [f'] at f
  cases f
  exact ⟨rfl, rfl⟩

/-! ## The hypotheses are met -/

def toyTx (i : F) : Tx := ⟨i, .invoke [i, 1]⟩
def toyRc (i : F) : Receipt := ⟨i, 5, [], none, 1, 2, 3, 4⟩
def toyHdr (n : Nat) : Hdr := ⟨n, ⟨0, 13, 4, 0⟩, 0, 0, 0, 2, 1⟩
def toyBody (i : F) : List ((Tx × Receipt) × List Event) := [((toyTx i, toyRc i), []), ((toyTx (i + 1), toyRc (i + 1)), [⟨1, [2], [3]⟩])]

def toyDB : Option DB :=
  ((⟨[], [], [], 0⟩ : DB).insertHeader (toyHdr 0)).bind fun db =>
    (db.insertData 0 ((toyBody 10).map (·.1)) (some ((toyBody 10).map (·.2)))).bind fun db =>
      (db.insertHeader (toyHdr 1)).bind fun db => (db.insertHeader (toyHdr 2)).bind fun db =>
        db.insertData 1 ((toyBody 20).map (·.1)) none

example : toyDB.isSome = true := by decide +kernel
example : (toyDB.bind fun db => db.dataFor 0) = some (toyBody 10) := by decide +kernel
example : (toyDB.bind fun db => db.transactionsFor 2) = some [] := by decide +kernel
example : (toyDB.bind fun db => db.insertData 2 ((toyBody 30).map (·.1)) (some ((toyBody 30).map (·.2)))).isSome = true := by decide +kernel
example : (toyDB.bind fun db => db.insertData 2 ((toyBody 11).map (·.1)) (some ((toyBody 11).map (·.2)))).isSome = false := by decide +kernel
example : (toyDB.bind fun db => db.transactionsFor 1) = some ((toyBody 20).map (·.1)) := by decide +kernel
example : toyDB.map (fun db => (db.purge 0).hashes) = some [(20, 1, 0), (21, 1, 1)] := by decide +kernel

end Verif.Body
