import Verif.Agree.Lemmas

/-! # Methods that describe a block agree (C108) -/

namespace Verif.Agree

/-- Two blocks: the first complete, the second with its body but without its events; block 0 is
accepted on L1. -/
def demo : List Op :=
  [.header ⟨0, 100, 7⟩, .body 0 [(⟨11, 1⟩, 5), (⟨12, 2⟩, 6)] (some [[1], []]),
   .header ⟨1, 101, 8⟩, .body 1 [(⟨13, 3⟩, 7)] none, .pointer (some 0)]

def demoDb : DB :=
  ⟨[⟨0, 100, 7⟩, ⟨1, 101, 8⟩],
   [⟨0, [(⟨11, 1⟩, 5), (⟨12, 2⟩, 6)], some [[1], []]⟩, ⟨1, [(⟨13, 3⟩, 7)], none⟩],
   [⟨11, 0, 0⟩, ⟨12, 0, 1⟩, ⟨13, 1, 0⟩], some 0⟩

def demo0 : Blk := ⟨⟨0, 100, 7⟩, some ([(⟨11, 1⟩, 5), (⟨12, 2⟩, 6)], some [[1], []])⟩
def demo1 : Blk := ⟨⟨1, 101, 8⟩, some ([(⟨13, 3⟩, 7)], none)⟩

theorem demo_run : run DB.empty demo = some demoDb := by decide
theorem demo_blocks : blocks demo = [demo0, demo1] := by decide
theorem demo_accepted : accepted demo = some 0 := by decide

/-- **C108 (same block).** After every history of writes, if an identifier names a block, then all
methods describe that block: the same header, the same L1 status, the hashes and the transactions
of its body in order, their number, and the transaction at each index, an index at or beyond the
end being an invalid index. -/
theorem C108_block {ops : List Op} {db : DB} (h : run DB.empty ops = some db) {rid : RpcId}
    {b : Blk} (hb : Names ops b rid) : ∃ l1 : Bool, (l1 = true ↔ OnL1 ops b) ∧
      getBlockWithTxHashes db rid = .ok (b.hdr, l1, b.txs.map fun p => p.1.hash) ∧
      getBlockWithTxs db rid = .ok (b.hdr, l1, b.txs.map fun p => p.1) ∧
      getBlockWithReceipts db rid =
        .ok (b.hdr, l1, (b.txs.zip b.events).map fun p => (p.1.1, p.1.2, p.2)) ∧
      getBlockTransactionCount db rid = .ok b.txs.length ∧
      (∀ i p, b.txs[i]? = some p → getTransactionByBlockIdAndIndex db rid i = .ok p.1) ∧
      (∀ i, b.txs.length ≤ i →
        getTransactionByBlockIdAndIndex db rid i = .error .invalidTxnIndex) := by
  have R := rel_of_run h
  obtain ⟨id, e, hn⟩ := toCommon_some R hb
  have hm := idNames_mem hn
  have hnn := idNames_number hm
  obtain ⟨q1, q2, q3, q4⟩ := query_some R hn
  obtain ⟨n1, n2, n3, n4⟩ := query_some R hnn
  obtain ⟨t1, t2⟩ := queryTransactions_blk R hm
  have l := l1_blk R hnn
  have l' : blockIsL1Accepted db id = blockIsL1Accepted db (.number b.hdr.num) := by
    rw [Bool.eq_iff_iff, l1_blk R hn, l]
  refine ⟨blockIsL1Accepted db (.number b.hdr.num), l, ?_, ?_, ?_, ?_, ?_, ?_⟩
  · simp only [getBlockWithTxHashes, e, q1, transactionHashesForBlock, n3, Option.map_some, must,
      R.hashes b hm, orderByIdx_hashRows, hashRows_hash]
  · simp only [getBlockWithTxs, e, q1, transactionsForBlock, n3, Option.map_some, must, t1]
  · simp only [getBlockWithReceipts, e, q1, transactionDataForBlock, q3, Option.map_some, must, t1,
      t2, l']
  · simp only [getBlockTransactionCount, e, q4, if_true, transactionCount, q3, t1]
  · intro i p hi
    simp only [getTransactionByBlockIdAndIndex, e, transactionAtBlock, q3, Option.bind_some, t1, hi,
      Option.map_some]
  · intro i hi
    have : b.txs[i]? = none := by rw [List.getElem?_eq_none_iff]; exact hi
    simp only [getTransactionByBlockIdAndIndex, e, transactionAtBlock, q3, Option.bind_some, t1,
      this, Option.map_none, q4, if_true]

example : run DB.empty demo = some demoDb ∧ Names demo demo1 .latest ∧
    Names demo demo0 .l1Accepted ∧ OnL1 demo demo0 ∧ ¬ OnL1 demo demo1 := by
  refine ⟨demo_run, ?_, ?_, ?_, ?_⟩
  · refine ⟨by rw [demo_blocks]; simp, ?_⟩
    rw [demo_blocks]; decide
  · exact ⟨by rw [demo_blocks]; simp, demo_accepted⟩
  · exact ⟨0, demo_accepted, Nat.le_refl _⟩
  · rintro ⟨p, hp, hle⟩
    rw [demo_accepted] at hp
    cases hp
    exact absurd hle (by decide)

/-- **C108 (no block).** If an identifier names no block, then every method says that the block was
not found. -/
theorem C108_not_found {ops : List Op} {db : DB} (h : run DB.empty ops = some db) {rid : RpcId}
    (hb : ∀ b, ¬ Names ops b rid) (stored : Nat → Upd) (sought : List Nat) (i : Nat) :
      getBlockWithTxHashes db rid = .error .blockNotFound ∧
      getBlockWithTxs db rid = .error .blockNotFound ∧
      getBlockWithReceipts db rid = .error .blockNotFound ∧
      getBlockTransactionCount db rid = .error .blockNotFound ∧
      getTransactionByBlockIdAndIndex db rid i = .error .blockNotFound ∧
      getStateUpdate stored db rid sought = .error .blockNotFound := by
  have R := rel_of_run h
  cases e : toCommon db rid with
  | none =>
    simp only [getBlockWithTxHashes, getBlockWithTxs, getBlockWithReceipts,
      getBlockTransactionCount, getTransactionByBlockIdAndIndex, getStateUpdate, e, and_self]
  | some id =>
    obtain ⟨q1, _, q3, q4⟩ := query_none R (toCommon_none R hb e)
    simp only [getBlockWithTxHashes, getBlockWithTxs, getBlockWithReceipts,
      getBlockTransactionCount, getTransactionByBlockIdAndIndex, getStateUpdate, e, q1, q3, q4,
      transactionAtBlock, Option.bind_none, Bool.false_eq_true, if_false, and_self]

example : ∀ b, ¬ Names demo b (.number 2) := by
  rintro b ⟨hb, hn⟩
  rw [demo_blocks] at hb
  simp only [List.mem_cons, List.not_mem_nil, or_false] at hb
  rcases hb with rfl | rfl <;> exact absurd hn (by decide)

/-- **C108 (one block).** An identifier names at most one block. -/
theorem C108_unique {ops : List Op} {db : DB} (h : run DB.empty ops = some db) {rid : RpcId}
    {b b' : Blk} (hb : Names ops b rid) (hb' : Names ops b' rid) : b = b' := by
  have R := rel_of_run h
  cases rid with
  | number n => exact nodup_num_eq R.nums hb.1 hb'.1 (by rw [hb.2, hb'.2])
  | hash n => exact nodup_hash_eq R.bhash hb.1 hb'.1 (by rw [hb.2, hb'.2])
  | latest =>
    refine nodup_num_eq R.nums hb.1 hb'.1 ?_
    have h1 := hb.2 b' hb'.1
    have h2 := hb'.2 b hb.1
    omega
  | l1Accepted =>
    refine nodup_num_eq R.nums hb.1 hb'.1 ?_
    have h1 := hb.2
    rw [hb'.2] at h1
    simpa using h1.symm

example : Names demo demo1 (.number 1) ∧ Names demo demo1 (.hash 101) := by
  refine ⟨⟨by rw [demo_blocks]; simp, rfl⟩, ⟨by rw [demo_blocks]; simp, rfl⟩⟩

/-- **C108 (newest block).** The block number and the block hash and number are those of the block
that `latest` names; there are no blocks exactly when `latest` names none, and this is so exactly
when the history leaves no block. -/
theorem C108_latest {ops : List Op} {db : DB} (h : run DB.empty ops = some db) :
    (∀ b, Names ops b .latest → getBlockNumber db = .ok b.hdr.num ∧
      getBlockHashAndNumber db = .ok (b.hdr.num, b.hdr.hash)) ∧
    ((∀ b, ¬ Names ops b .latest) → blocks ops = [] ∧ getBlockNumber db = .error .noBlocks ∧
      getBlockHashAndNumber db = .error .noBlocks) := by
  have R := rel_of_run h
  constructor
  · intro b hb
    have hn : IdNames (blocks ops) b .latest := hb
    simp only [getBlockNumber, getBlockHashAndNumber, (query_some R hn).2.1, and_self]
  · intro hb
    have hn : ∀ b, ¬ IdNames (blocks ops) b .latest := hb
    obtain ⟨q1, q2, _, _⟩ := query_none R hn
    refine ⟨?_, ?_, ?_⟩
    · have := (newest_spec _).1.1 q1
      rw [R.headers, List.map_eq_nil_iff] at this
      exact this
    · simp only [getBlockNumber, q2]
    · simp only [getBlockHashAndNumber, q2]

example : run DB.empty demo = some demoDb ∧ Names demo demo1 .latest := by
  refine ⟨demo_run, by rw [demo_blocks]; simp, ?_⟩
  rw [demo_blocks]; decide

/-- **C108 (newest block accepted on L1).** The newest block accepted on L1 is the block that
`l1_accepted` names; it is shown as accepted on L1, and there is none exactly when the identifier
names none. -/
theorem C108_l1_block {ops : List Op} {db : DB} (h : run DB.empty ops = some db) :
    (∀ b, Names ops b .l1Accepted → getLastL1Accepted db = .ok (b.hdr.num, b.hdr.hash) ∧
      getBlockWithTxHashes db .l1Accepted = .ok (b.hdr, true, b.txs.map fun p => p.1.hash)) ∧
    ((∀ b, ¬ Names ops b .l1Accepted) → getLastL1Accepted db = .error .noBlocks) := by
  have R := rel_of_run h
  constructor
  · intro b hb
    have hn : IdNames (blocks ops) b (.number b.hdr.num) := ⟨hb.1, rfl⟩
    constructor
    · simp only [getLastL1Accepted, R.l1, hb.2, (query_some R hn).2.1]
    · obtain ⟨l1, hl, e, _⟩ := C108_block h hb
      have : l1 = true := hl.2 ⟨b.hdr.num, hb.2, Nat.le_refl _⟩
      rw [e, this]
  · intro hb
    simp only [getLastL1Accepted, R.l1]
    cases hp : accepted ops with
    | none => rfl
    | some p =>
      have hn : ∀ b, ¬ IdNames (blocks ops) b (.number p) := by
        intro b hx
        exact hb b ⟨hx.1, by rw [hp, hx.2]⟩
      simp only [(query_none R hn).2.1]

example : run DB.empty demo = some demoDb ∧ Names demo demo0 .l1Accepted ∧
    ∀ b, ¬ Names [.header ⟨0, 100, 7⟩] b .l1Accepted :=
  ⟨demo_run, ⟨by rw [demo_blocks]; simp, demo_accepted⟩, fun _ h => absurd h.2 (by simp [accepted])⟩

/-- **C108 (L1 status is downward closed).** If a block is shown as accepted on L1, then so is every
stored block with a smaller number, in every method. -/
theorem C108_l1_down {ops : List Op} {db : DB} (h : run DB.empty ops = some db) {b b' : Blk}
    {rid rid' : RpcId} (hb : Names ops b rid) (hb' : Names ops b' rid')
    (hle : b'.hdr.num ≤ b.hdr.num) {hs : List Nat}
    (hshown : getBlockWithTxHashes db rid = .ok (b.hdr, true, hs)) :
    ∃ ts rs, getBlockWithTxs db rid' = .ok (b'.hdr, true, ts) ∧
      getBlockWithReceipts db rid' = .ok (b'.hdr, true, rs) := by
  obtain ⟨l1, hl, e, _⟩ := C108_block h hb
  rw [e] at hshown
  simp only [Except.ok.injEq, Prod.mk.injEq, true_and] at hshown
  obtain ⟨p, hp, hnp⟩ := hl.1 hshown.1
  obtain ⟨l2, hl2, _, e2, e3, _⟩ := C108_block h hb'
  have : l2 = true := hl2.2 ⟨p, hp, by omega⟩
  subst this
  exact ⟨_, _, e2, e3⟩

example : getBlockWithTxHashes demoDb .l1Accepted = .ok (demo0.hdr, true, [11, 12]) := rfl

/-- **C108 (receipts), partial.** If the events of a block's transactions are known, then the method
that shows receipts lists exactly the block's transactions with their receipts, and the receipt of
each of them asked for by hash is the same, with the block's number, hash and L1 status.

Partial: without the events neither holds (`C108_receipts_violated`). -/
theorem C108_receipts_partial {ops : List Op} {db : DB} (h : run DB.empty ops = some db)
    {rid : RpcId} {b : Blk} (hb : Names ops b rid) (hc : b.Complete) :
    ∃ l1 rs, (l1 = true ↔ OnL1 ops b) ∧ getBlockWithReceipts db rid = .ok (b.hdr, l1, rs) ∧
      rs.map (fun r => (r.1, r.2.1)) = b.txs ∧ rs.map (fun r => r.2.2) = b.events ∧
      ∀ (i : Nat) (t : Tx) (r : Nat) (ev : List Nat), rs[i]? = some (t, r, ev) →
        getTransactionReceipt db t.hash = .ok (t, r, ev, b.hdr.num, b.hdr.hash, l1) := by
  have R := rel_of_run h
  obtain ⟨id, e, hn⟩ := toCommon_some R hb
  have hm := idNames_mem hn
  have hnn := idNames_number hm
  obtain ⟨l1, hl, _, _, er, _⟩ := C108_block h hb
  refine ⟨l1, _, hl, er, ?_, ?_, ?_⟩
  · rw [List.map_map]
    have : ((fun r : Tx × Nat × List Nat => (r.1, r.2.1)) ∘
        fun p : (Tx × Nat) × List Nat => (p.1.1, p.1.2, p.2)) = Prod.fst := by
      funext p; rfl
    rw [this, List.map_fst_zip]
    exact Nat.le_of_eq hc.symm
  · rw [List.map_map]
    have : ((fun r : Tx × Nat × List Nat => r.2.2) ∘
        fun p : (Tx × Nat) × List Nat => (p.1.1, p.1.2, p.2)) = Prod.snd := by
      funext p; rfl
    rw [this, List.map_snd_zip]
    exact Nat.le_of_eq hc
  · intro i t r ev hi
    rw [List.getElem?_map, Option.map_eq_some_iff] at hi
    obtain ⟨p, hp, hpe⟩ := hi
    rw [List.getElem?_zip_eq_some] at hp
    obtain ⟨hp1, hp2⟩ := hp
    simp only [Prod.mk.injEq] at hpe
    obtain ⟨e1, e2, e3⟩ := hpe
    have hf := find_hashRow R hm hp1
    have hl' : blockIsL1Accepted db (.number b.hdr.num) = l1 := by
      rw [Bool.eq_iff_iff, l1_blk R hnn, hl]
      exact Iff.rfl
    have hrow := R.rows b hm
    cases hbody : b.body with
    | none => rw [Blk.txs, hbody] at hp1; simp at hp1
    | some q =>
      obtain ⟨data, evs⟩ := q
      have htx : b.txs = data := by simp [Blk.txs, hbody]
      rw [hbody] at hrow
      simp only [Option.map_some] at hrow
      rw [htx] at hp1
      cases evs with
      | none => rw [Blk.events, hbody] at hp2; simp at hp2
      | some evl =>
        have hev : b.events = evl := by simp [Blk.events, hbody]
        rw [hev] at hp2
        have htw : transactionWithReceipt db t.hash = some (some (b.hdr.num, t, r, ev)) := by
          subst e1 e2 e3
          simp only [transactionWithReceipt, hf, Option.bind_some, hrow, Option.map_some, hp1, hp2]
        simp only [getTransactionReceipt, htw, (query_some R hnn).2.1, hl']

example : run DB.empty demo = some demoDb ∧ Names demo demo0 (.number 0) ∧ demo0.Complete ∧
    demo0.txs.length = 2 :=
  ⟨demo_run, ⟨by rw [demo_blocks]; simp, rfl⟩, rfl, rfl⟩

/-- **C108 (receipts), violated.** A block whose transactions are stored but whose events are not
has transactions, but the method that shows receipts shows none of them, and asking for the receipt
of one of them fails with an internal error. -/
theorem C108_receipts_violated : ∃ (ops : List Op) (db : DB), run DB.empty ops = some db ∧
    getBlockTransactionCount db .latest = .ok 1 ∧
    getBlockWithReceipts db .latest = .ok (⟨1, 101, 8⟩, false, []) ∧
    getTransactionByBlockIdAndIndex db .latest 0 = .ok ⟨13, 3⟩ ∧
    getTransactionReceipt db 13 = .error .internal :=
  ⟨demo, demoDb, demo_run, rfl, rfl, rfl, rfl⟩

/-- **C108 (unknown transaction).** A hash that belongs to no transaction of any stored block is
reported as not found: the transactions of a removed block are not found any more. -/
theorem C108_unknown_tx {ops : List Op} {db : DB} (h : run DB.empty ops = some db) {hash : Nat}
    (hno : ∀ b ∈ blocks ops, ∀ p ∈ b.txs, p.1.hash ≠ hash) :
    getTransactionReceipt db hash = .error .txnHashNotFound := by
  have R := rel_of_run h
  have : (db.hashes.find? fun r => r.hash == hash) = none := by
    rw [List.find?_eq_none]
    intro r hr he
    simp only [beq_iff_eq] at he
    obtain ⟨b, hb, hn⟩ := R.hashOf r hr
    have hmem : r ∈ hashRows b.hdr.num 0 b.txs := by
      rw [← R.hashes b hb, List.mem_filter]
      exact ⟨hr, by simp [hn]⟩
    obtain ⟨p, hp, hph, _⟩ := hashRows_mem _ _ _ _ hmem
    exact hno b hb p (List.mem_of_getElem? hp) (by rw [hph, he])
  simp only [getTransactionReceipt, transactionWithReceipt, this, Option.bind_none]

example : run DB.empty (demo ++ [.remove 1]) ≠ none ∧
    ∀ b ∈ blocks (demo ++ [.remove 1]), ∀ p ∈ b.txs, p.1.hash ≠ 13 := by decide

/-- **C108 (one transaction, one place).** A transaction hash belongs to at most one position of one
stored block. -/
theorem C108_tx_once {ops : List Op} {db : DB} (h : run DB.empty ops = some db) {b b' : Blk}
    (hb : b ∈ blocks ops) (hb' : b' ∈ blocks ops) {i j : Nat} {p q : Tx × Nat}
    (hi : b.txs[i]? = some p) (hj : b'.txs[j]? = some q) (he : p.1.hash = q.1.hash) :
    b = b' ∧ i = j ∧ p = q := by
  have R := rel_of_run h
  have f1 := find_hashRow R hb hi
  have f2 := find_hashRow R hb' hj
  rw [← he, f1] at f2
  simp only [Option.some.injEq, HashRow.mk.injEq, true_and] at f2
  have hbb := nodup_num_eq R.nums hb hb' f2.1
  subst hbb
  have hij := f2.2
  subst hij
  rw [hi] at hj
  exact ⟨rfl, rfl, by simpa using hj⟩

example : demo0 ∈ blocks demo ∧ demo0.txs[1]? = some (⟨12, 2⟩, 6) :=
  ⟨by rw [demo_blocks]; simp, rfl⟩

/-- **C108 (state update), partial.** For a stored block whose parent is also stored, or which is
the first, the state update is shown; without the parent it is reported as not found.

Partial: a block that the other methods show may thus be "not found" here
(`C108_state_update_violated`). -/
theorem C108_state_update_partial {ops : List Op} {db : DB} (h : run DB.empty ops = some db)
    {rid : RpcId} {b : Blk} (hb : Names ops b rid) (stored : Nat → Upd) (sought : List Nat) :
    (ParentStored ops b → ∃ u, getStateUpdate stored db rid sought = .ok u ∧
      u.declared = (stored b.hdr.num).declared ∧
      (sought = [] → u = stored b.hdr.num) ∧
      (sought ≠ [] → (∀ c, c ∈ u.contracts ↔ c ∈ (stored b.hdr.num).contracts ∧ c.1 ∈ sought) ∧
        (∀ c, c ∈ u.system ↔ c ∈ (stored b.hdr.num).system ∧ c.1 ∈ sought))) ∧
    (¬ ParentStored ops b → getStateUpdate stored db rid sought = .error .blockNotFound) := by
  have R := rel_of_run h
  obtain ⟨id, e, hn⟩ := toCommon_some R hb
  obtain ⟨_, _, q3, _⟩ := query_some R hn
  have hcond : (b.hdr.num ≠ 0 ∧ (! blockExists db (.number (b.hdr.num - 1))) = true) ↔
      ¬ ParentStored ops b := by
    by_cases hz : b.hdr.num = 0
    · simp [ParentStored, hz]
    · by_cases hex : ∃ b' ∈ blocks ops, b'.hdr.num + 1 = b.hdr.num
      · obtain ⟨b', hb', he⟩ := hex
        have hid : IdNames (blocks ops) b' (.number (b.hdr.num - 1)) := ⟨hb', by omega⟩
        have hps : ParentStored ops b := Or.inr ⟨b', hb', he⟩
        simp [(query_some R hid).2.2.2, hps]
      · have hid : ∀ x, ¬ IdNames (blocks ops) x (.number (b.hdr.num - 1)) := by
          rintro x ⟨hx, hxe⟩
          exact hex ⟨x, hx, by omega⟩
        have hps : ¬ ParentStored ops b := by
          rintro (h0 | hx)
          · exact hz h0
          · exact hex hx
        simp [(query_none R hid).2.2.2, hps, hz]
  constructor
  · intro hps
    have hc : ¬ (b.hdr.num ≠ 0 ∧ (! blockExists db (.number (b.hdr.num - 1))) = true) :=
      fun x => hcond.1 x hps
    simp only [getStateUpdate, e, q3]
    rw [if_neg hc]
    cases sought with
    | nil => exact ⟨_, rfl, rfl, fun _ => rfl, fun x => absurd rfl x⟩
    | cons s ss =>
      refine ⟨_, rfl, rfl, fun x => absurd x (by simp), fun _ => ⟨?_, ?_⟩⟩
      · intro c
        simp [filterUpd, List.mem_filter]
      · intro c
        simp [filterUpd, List.mem_filter]
  · intro hps
    simp only [getStateUpdate, e, q3]
    rw [if_pos (hcond.2 hps)]

example : ParentStored demo demo1 := Or.inr ⟨demo0, by rw [demo_blocks]; simp, rfl⟩

/-- **C108 (state update), violated.** On a node that removes old blocks, the earliest block it
keeps is shown by the block methods, but its state update is reported as not found. -/
theorem C108_state_update_violated : ∃ (ops : List Op) (db : DB), run DB.empty ops = some db ∧
    getBlockWithTxs db (.number 1) = .ok (⟨1, 101, 8⟩, false, [⟨13, 3⟩]) ∧
    getBlockTransactionCount db (.number 1) = .ok 1 ∧
    ∀ (stored : Nat → Upd) (sought : List Nat),
      getStateUpdate stored db (.number 1) sought = .error .blockNotFound := by
  refine ⟨[.header ⟨0, 100, 7⟩, .header ⟨1, 101, 8⟩, .body 1 [(⟨13, 3⟩, 7)] (some [[]]),
    .remove 0], ⟨[⟨1, 101, 8⟩], [⟨1, [(⟨13, 3⟩, 7)], some [[]]⟩], [⟨13, 1, 0⟩], none⟩,
    by decide, rfl, rfl, fun _ _ => rfl⟩

end Verif.Agree
