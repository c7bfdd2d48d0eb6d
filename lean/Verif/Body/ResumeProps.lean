import Verif.Body.SyncProps
/-!
# Syncing transactions and events again after an interruption (C71)
-/
namespace Verif.Body
open Verif.Block (F Tx Receipt Event Hashes)

/-- The next block whose transactions are wanted is the first that has a header and no transactions stored, unless it is beyond the head. -/
theorem C71_next (db : DB) (head n : Nat) :
    db.nextTransactions head = some n ↔
      n ≤ head ∧ (∃ x ∈ db.headers, x.number = n) ∧ (∀ r ∈ db.rows, r.number ≠ n) ∧
      ∀ x ∈ db.headers, x.number < n → ∃ r ∈ db.rows, r.number = x.number := by
  unfold DB.nextTransactions DB.firstWithoutTransactions smallest
  rw [Option.filter_eq_some_iff, List.min?_eq_some_iff]
  simp only [List.mem_map, List.mem_filter, Option.isNone_iff_eq_none, decide_eq_true_eq]
  constructor
  · rintro ⟨⟨⟨x, ⟨h1, h2⟩, rfl⟩, h3⟩, h4⟩
    refine ⟨h4, ⟨x, h1, rfl⟩, row_none.1 h2, ?_⟩
    intro y hy hlt
    apply Classical.byContradiction
    intro hn
    have := h3 y.number ⟨y, ⟨hy, row_none.2 fun r hr k => hn ⟨r, hr, k⟩⟩, rfl⟩
    omega
  · rintro ⟨h1, ⟨x, h2, rfl⟩, h3, h4⟩
    refine ⟨⟨⟨x, ⟨h2, row_none.2 h3⟩, rfl⟩, ?_⟩, h1⟩
    rintro b ⟨y, ⟨hy, hn⟩, rfl⟩
    apply Nat.le_of_not_lt
    intro hlt
    obtain ⟨r, hr, e⟩ := h4 y hy hlt
    exact row_none.1 hn r hr e

/-! ## Blocks that have transactions -/

/-- What an honest peer sends for the blocks up to the head: transactions that the headers commit to, each with another hash. -/
structure Honest (h : Hashes) (db : DB) (data : Nat → List (Tx × Receipt)) (head : Nat) : Prop where
  header : ∀ n ≤ head, ∃ hdr, db.header n = some hdr ∧ verifyTransactions h hdr ((data n).map withHash) = true
  distinct : ((List.range (head + 1)).flatMap fun n => (data n).map (·.1.hash)).Nodup

/-- The tables after the transactions of the first blocks. -/
def after (db : DB) (data : Nat → List (Tx × Receipt)) : Nat → DB
  | 0 => db
  | n + 1 => { after db data n with
      rows := (after db data n).rows ++ [⟨n, (data n).map withHash, none⟩]
      hashes := (after db data n).hashes ++ ((data n).map (·.1.hash)).zipIdx.map fun p => (p.1, n, p.2) }

theorem after_headers (db : DB) (data) (n : Nat) : (after db data n).headers = db.headers := by
  induction n with
  | zero => rfl
  | succ n ih => exact ih

theorem after_rows (db : DB) (data) (n : Nat) (h0 : db.rows = []) :
    (after db data n).rows = (List.range n).map fun i => ⟨i, (data i).map withHash, none⟩ := by
  induction n with
  | zero => exact h0
  | succ n ih =>
    rw [List.range_succ, List.map_append]
    show (after db data n).rows ++ _ = _
    rw [ih]; rfl

theorem after_hashes (db : DB) (data) (n : Nat) (h0 : db.hashes = []) :
    (after db data n).hashes.map (·.1) = (List.range n).flatMap fun i => (data i).map (·.1.hash) := by
  induction n with
  | zero => rw [after, h0]; rfl
  | succ n ih =>
    rw [List.range_succ, List.flatMap_append]
    show (((after db data n).hashes ++ _).map _) = _
    rw [List.map_append, ih, List.map_map]
    congr 1
    simp [Function.comp_def]

theorem after_row (db : DB) (data) (n m : Nat) (h0 : db.rows = []) :
    (after db data n).row m = if m < n then some ⟨m, (data m).map withHash, none⟩ else none := by
  split
  · rename_i hm
    unfold DB.row
    rw [after_rows db data n h0]
    have := row_of_mem (l := (List.range n).map fun i => (⟨i, (data i).map withHash, none⟩ : Row)) (r := ⟨m, (data m).map withHash, none⟩)
      (by rw [List.map_map]; simpa [Function.comp_def] using List.nodup_range) (List.mem_map.2 ⟨m, List.mem_range.2 hm, rfl⟩)
    exact this
  · rename_i hm
    rw [row_none, after_rows db data n h0]
    intro r hr
    obtain ⟨i, hi, rfl⟩ := List.mem_map.1 hr
    have := List.mem_range.1 hi
    simp only
    omega

theorem after_step {h : Hashes} {db : DB} {data : Nat → List (Tx × Receipt)} {head n : Nat} (hh : Honest h db data head) (h0 : db.rows = [])
    (h1 : db.hashes = []) (hne : data n ≠ []) (hn : n ≤ head) : storeTransactions h (after db data n) n (data n) = some (after db data (n + 1)) := by
  obtain ⟨hdr, k1, k2⟩ := hh.header n hn
  have k1' : (after db data n).header n = some hdr := by unfold DB.header; rw [after_headers]; exact k1
  refine storeTransactions_some.2 ⟨hdr, k1', k2, ?_⟩
  have hem : ((data n).map withHash).isEmpty = false := by simpa using hne
  have hrow := after_row db data n n h0
  rw [if_neg (by omega)] at hrow
  have hany : ((after db data n).rows.any fun r => r.number == n) = false := by
    rw [List.any_eq_false]
    intro r hr
    simpa using row_none.1 hrow r hr
  have hks : ((data n).map withHash).map (·.1.hash) = (data n).map (·.1.hash) := by rw [List.map_map]; rfl
  have hd := hh.distinct
  have hsplit : ((List.range (n + 1)).flatMap fun i => (data i).map (·.1.hash)).Nodup := by
    refine hd.sublist ?_
    have : ∃ l, List.range (head + 1) = List.range (n + 1) ++ l := by
      refine ⟨(List.range (head - n)).map (n + 1 + ·), ?_⟩
      rw [← List.range_add]
      congr 1
      omega
    obtain ⟨l, hl⟩ := this
    rw [hl, List.flatMap_append]
    exact List.sublist_append_left _ _
  rw [List.range_succ, List.flatMap_append, List.nodup_append] at hsplit
  obtain ⟨-, s2, s3⟩ := hsplit
  have hins : (insertHashes n 0 ((data n).map (·.1.hash)) (after db data n).hashes).isSome := by
    refine insertHashes_ok (by simpa using s2) ?_
    intro x hx r hr
    have hr' : r.1 ∈ (after db data n).hashes.map (·.1) := List.mem_map_of_mem hr
    rw [after_hashes db data n h1] at hr'
    exact s3 r.1 hr' x (by simpa using hx)
  obtain ⟨t, ht⟩ := Option.isSome_iff_exists.1 hins
  have ht' := (insertHashes_some ht).1
  unfold DB.insertData
  simp only [Option.isSome_none, Bool.false_eq_true, if_false, hem, Bool.false_and, k1', Option.isNone_some, hany, Bool.or_self, hks, ht, Option.map_some, ht']
  rfl

theorem after_run {h : Hashes} {db : DB} {data : Nat → List (Tx × Receipt)} {head : Nat} (hh : Honest h db data head) (h0 : db.rows = [])
    (h1 : db.hashes = []) (hne : ∀ n ≤ head, data n ≠ []) : ∀ (k n : Nat), n + k ≤ head + 1 →
    syncTransactions h data n k (after db data n) = (after db data (n + k), true)
  | 0, _, _ => rfl
  | k + 1, n, hk => by
    rw [syncTransactions, after_step hh h0 h1 (hne n (by omega)) (by omega)]
    simp only
    rw [after_run hh h0 h1 hne k (n + 1) (by omega), show n + 1 + k = n + (k + 1) by omega]

theorem after_next {h : Hashes} {db : DB} {data : Nat → List (Tx × Receipt)} {head n : Nat} (hh : Honest h db data head) (h0 : db.rows = [])
    (hn : n ≤ head) : (after db data n).nextTransactions head = some n := by
  rw [C71_next, after_headers]
  refine ⟨hn, ?_, ?_, ?_⟩
  · obtain ⟨hdr, k, -⟩ := hh.header n hn
    exact ⟨hdr, List.mem_of_find?_eq_some k, by simpa using List.find?_some k⟩
  · rw [← row_none, after_row db data n n h0, if_neg (by omega)]
  · intro x _ hlt
    rw [after_rows db data n h0]
    exact ⟨_, List.mem_map.2 ⟨x.number, List.mem_range.2 hlt, rfl⟩, rfl⟩

/-- Runs that were interrupted, after any number of blocks each. -/
inductive Interrupted (h : Hashes) (data : Nat → List (Tx × Receipt)) (head : Nat) (db : DB) : DB → Prop
  | start : Interrupted h data head db db
  | run {db' : DB} (hi : Interrupted h data head db db') {n : Nat} (hn : db'.nextTransactions head = some n) (k : Nat) (hk : n + k ≤ head + 1) :
      Interrupted h data head db (syncTransactions h data n k db').1

/-- C71, partial: if every block up to the head has transactions, then after any number of interruptions, anywhere, a run that is not interrupted succeeds and
all transactions are stored. Missing: histories with a block without transactions, see `C71_empty_violated`. -/
theorem C71_resume_partial {h : Hashes} {db db' : DB} {data : Nat → List (Tx × Receipt)} {head : Nat} (hh : Honest h db data head) (h0 : db.rows = [])
    (h1 : db.hashes = []) (hne : ∀ n ≤ head, data n ≠ []) (hi : Interrupted h data head db db') :
    (db'.syncTransactions h data head).2 = true ∧
    ∀ n ≤ head, (db'.syncTransactions h data head).1.transactionsFor n = some ((data n).map withHash) := by
  have key : ∃ n ≤ head + 1, db' = after db data n := by
    induction hi with
    | start => exact ⟨0, by omega, rfl⟩
    | @run db' hi n hn k hk ih =>
      obtain ⟨m, hm, rfl⟩ := ih
      by_cases hmh : m ≤ head
      · rw [after_next hh h0 hmh] at hn
        have hmn : m = n := Option.some.inj hn
        subst hmn
        rw [after_run hh h0 h1 hne k m hk]
        exact ⟨m + k, hk, rfl⟩
      · exfalso
        obtain ⟨k1, -, k2, -⟩ := (C71_next _ _ _).1 hn
        rw [← row_none, after_row db data m n h0, if_pos (by omega)] at k2
        cases k2
  obtain ⟨m, hm, rfl⟩ := key
  have fin : (after db data m).syncTransactions h data head = (after db data (head + 1), true) := by
    unfold DB.syncTransactions
    by_cases hmh : m ≤ head
    · rw [after_next hh h0 hmh]
      simp only
      rw [after_run hh h0 h1 hne _ m (by omega), show m + (head + 1 - m) = head + 1 by omega]
    · have hnone : (after db data m).nextTransactions head = none := by
        rw [Option.eq_none_iff_forall_ne_some]
        intro n hn
        obtain ⟨k1, -, k2, -⟩ := (C71_next _ _ _).1 hn
        rw [← row_none, after_row db data m n h0, if_pos (by omega)] at k2
        cases k2
      rw [hnone, show m = head + 1 by omega]
  rw [fin]
  refine ⟨rfl, fun n hn => ?_⟩
  obtain ⟨hdr, k, -⟩ := hh.header n hn
  unfold DB.transactionsFor
  rw [after_row db data _ n h0, if_pos (by omega)]
  have : (after db data (head + 1)).header n = some hdr := by unfold DB.header; rw [after_headers]; exact k
  rw [this]; rfl

/-! ## A block without transactions -/

theorem store_keeps {h : Hashes} {db db' : DB} {n : Nat} {txs : List (Tx × Receipt)} (e : storeTransactions h db n txs = some db') :
    db'.headers = db.headers ∧ (∀ r ∈ db.rows, r ∈ db'.rows) ∧ (∀ m, (m = n → txs = []) → db.row m = none → db'.row m = none) := by
  obtain ⟨hdr, a1, a2, a3⟩ := storeTransactions_some.1 e
  obtain ⟨hhd, ⟨k1, -, k2, -⟩ | ⟨hn, -, k, k2, -⟩⟩ := insertData_cases a3
  · refine ⟨hhd, by rw [k2]; exact fun r hr => hr, fun m _ hm => ?_⟩
    unfold DB.row at *
    rw [k2]; exact hm
  · refine ⟨hhd, by rw [k2]; exact fun r hr => List.mem_append_left _ hr, fun m hm0 hm => ?_⟩
    rw [row_append (r := ⟨n, _, none⟩) k k2]
    split
    · rename_i hmn
      exfalso
      refine hn ⟨?_, .inl rfl⟩
      rw [hm0 hmn]; rfl
    · exact hm

theorem run_stuck {h : Hashes} {data : Nat → List (Tx × Receipt)} {j k : Nat} (hd : data j ≠ []) (hk : data k = []) : ∀ (c n : Nat) (db : DB), n ≤ j → j < n + c →
    (∃ r ∈ db.rows, r.number = j) →
    (syncTransactions h data n c db).2 = false ∧ (syncTransactions h data n c db).1.headers = db.headers ∧
    (∃ r ∈ (syncTransactions h data n c db).1.rows, r.number = j) ∧
    (db.row k = none → (syncTransactions h data n c db).1.row k = none)
  | 0, n, db, h1, h2, _ => by omega
  | c + 1, n, db, h1, h2, hr => by
    rw [syncTransactions]
    rcases hs : storeTransactions h db n (data n) with _ | db1
    · exact ⟨rfl, rfl, hr, fun x => x⟩
    · simp only
      obtain ⟨r, hr, hj⟩ := hr
      obtain ⟨s1, s2, s3⟩ := store_keeps hs
      by_cases hnj : n = j
      · exfalso
        subst hnj
        obtain ⟨hdr, a1, a2, a3⟩ := storeTransactions_some.1 hs
        obtain ⟨-, ⟨k1, -⟩ | ⟨-, -, k, -⟩⟩ := insertData_cases a3
        · exact hd (by simpa using k1)
        · exact row_none.1 k r hr hj
      · obtain ⟨t1, t2, t3, t4⟩ := run_stuck hd hk c (n + 1) db1 (by omega) (by omega) ⟨r, s2 r hr, hj⟩
        refine ⟨t1, t2.trans s1, t3, fun hx => t4 (s3 k ?_ hx)⟩
        rintro rfl
        exact hk

/-- C71: once a block without transactions is followed by one whose transactions are stored, no run ever succeeds again. The next starts again at the empty
block or before and fails at the latest where it would store the later block a second time; what it leaves is in the same state. -/
theorem C71_empty_violated {h : Hashes} {db : DB} {head k j : Nat} (hkj : k < j) (hj : j ≤ head) (hhk : (db.header k).isSome) (hk : db.row k = none)
    (hrj : (db.row j).isSome) {data : Nat → List (Tx × Receipt)} (hdk : data k = []) (hdj : data j ≠ []) :
    (db.syncTransactions h data head).2 = false ∧
    ((db.syncTransactions h data head).1.header k).isSome ∧ (db.syncTransactions h data head).1.row k = none ∧
    ((db.syncTransactions h data head).1.row j).isSome := by
  obtain ⟨hdr, hh⟩ := Option.isSome_iff_exists.1 hhk
  obtain ⟨r, hr⟩ := Option.isSome_iff_exists.1 hrj
  have hmem : k ∈ (db.headers.filter fun h => (db.row h.number).isNone).map (·.number) := by
    have hn : hdr.number = k := by simpa using List.find?_some hh
    refine List.mem_map.2 ⟨hdr, List.mem_filter.2 ⟨List.mem_of_find?_eq_some hh, ?_⟩, hn⟩
    rw [hn, hk]; rfl
  obtain ⟨n, hn⟩ : ∃ n, ((db.headers.filter fun h => (db.row h.number).isNone).map (·.number)).min? = some n := by
    rcases hx : ((db.headers.filter fun h => (db.row h.number).isNone).map (·.number)).min? with _ | n
    · rw [List.min?_eq_none_iff] at hx
      rw [hx] at hmem; simp at hmem
    · exact ⟨n, hx⟩
  have hnk : n ≤ k := (List.min?_eq_some_iff.1 hn).2 k hmem
  have hnext : db.nextTransactions head = some n := by
    unfold DB.nextTransactions DB.firstWithoutTransactions smallest
    rw [hn, Option.filter_some, if_pos (by simp; omega)]
  obtain ⟨t1, t2, t3, t4⟩ := run_stuck (h := h) hdj hdk (head + 1 - n) n db (by omega) (by omega) ⟨r, (row_mem hr).1, (row_mem hr).2⟩
  unfold DB.syncTransactions
  rw [hnext]
  refine ⟨t1, ?_, t4 hk, ?_⟩
  · simp only
    unfold DB.header
    rw [t2]
    exact hhk
  · rcases hx : (syncTransactions h data n (head + 1 - n) db).1.row j with _ | b
    · exfalso
      obtain ⟨b, hb, e⟩ := t3
      exact row_none.1 hx b hb e
    · simp

/-! ## Events -/

/-- C71: after a restart no events are wanted, however many are missing, once the header of the head is stored. -/
theorem C71_events_violated (db : DB) {head : Nat} (hh : (db.header head).isSome) : db.restart.nextMissingEvents head = none := by
  obtain ⟨hdr, hh⟩ := Option.isSome_iff_exists.1 hh
  have hm : head ∈ db.headers.map (·.number) :=
    List.mem_map.2 ⟨hdr, List.mem_of_find?_eq_some hh, by simpa using List.find?_some hh⟩
  unfold DB.nextMissingEvents DB.restart
  rcases hx : (db.headers.map (·.number)).max? with _ | m
  · rw [List.max?_eq_none_iff] at hx
    rw [hx] at hm; simp at hm
  · have := (List.max?_eq_some_iff.1 hx).2 head hm
    simp only [hx, Option.elim_some]
    rw [if_neg (by omega)]

/-- C71: with the events of all blocks but the last stored, none are wanted either. -/
theorem C71_last_violated (db : DB) (n : Nat) (es : List (List Event)) : (db.updateEvents n es).nextMissingEvents (n + 1) = none := by
  unfold DB.nextMissingEvents DB.updateEvents
  simp

/-- C71, partial: before a restart, the events that are wanted start after the last block whose events were stored. Missing: the last block, and restarts. -/
theorem C71_events_partial (db : DB) (n : Nat) (es : List (List Event)) {head : Nat} (hn : n + 1 < head) :
    (db.updateEvents n es).nextMissingEvents head = some (n + 1) := by
  unfold DB.nextMissingEvents DB.updateEvents
  simp only
  rw [if_pos hn]

/-! ## The hypotheses are met -/

def toyData : Nat → List (Tx × Receipt) := fun n => [(toyTx (Verif.Block.felt (2 * n)), toyRc 0), (toyTx (Verif.Block.felt (2 * n + 1)), toyRc 0)]
def toyH (data : Nat → List (Tx × Receipt)) (n : Nat) : Hdr :=
  { number := n, version := ⟨0, 13, 4, 0⟩, transactionCommitment := get0 (Verif.Block.transactionCommitment toyHashes ((data n).map (·.1)) ⟨0, 13, 4, 0⟩),
    eventCommitment := 0, receiptCommitment := 0, transactionCount := (data n).length, eventCount := 0 }
def toyStart (data : Nat → List (Tx × Receipt)) : DB := ⟨(List.range 4).map (toyH data), [], [], 0⟩

example : Honest toyHashes (toyStart toyData) toyData 3 := by
  constructor
  · intro n hn
    have : n = 0 ∨ n = 1 ∨ n = 2 ∨ n = 3 := by omega
    rcases this with rfl | rfl | rfl | rfl
    · exact ⟨toyH toyData 0, by decide +kernel, by decide +kernel⟩
    · exact ⟨toyH toyData 1, by decide +kernel, by decide +kernel⟩
    · exact ⟨toyH toyData 2, by decide +kernel, by decide +kernel⟩
    · exact ⟨toyH toyData 3, by decide +kernel, by decide +kernel⟩
  · decide +kernel

/-- With the second block empty: an interruption after the third block, and the run after it fails. -/
def toyGap : Nat → List (Tx × Receipt) := fun n => if n = 1 then [] else toyData n
def toyStopped : DB := (syncTransactions toyHashes toyGap 0 3 (toyStart toyGap)).1

example : ((syncTransactions toyHashes toyGap 0 4 (toyStart toyGap)).2, (toyStopped.header 1).isSome, toyStopped.row 1, (toyStopped.row 2).isSome,
    (toyStopped.syncTransactions toyHashes toyGap 3).2) = (true, true, none, true, false) := by decide +kernel

end Verif.Body
