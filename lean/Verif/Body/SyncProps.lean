import Verif.Body.SyncLemmas
/-!
# A block from peers reads as its header commits (C70)
-/
namespace Verif.Body
open Verif.Block (F Tx Receipt Event Hashes transactionCommitment eventCommitment receiptCommitment flatEvents Broken transactionsQ eventsQ hashedSignature
  eventCovered C66_transactions C66_events C66_events_grouped before v0132)

/-- The events of a block with their transactions. -/
def eventList (l : List ((Tx × Receipt) × List Event)) : List (F × List Event) := l.map fun x => (x.1.1.hash, x.2)

/-- What a header says of a body: the counts and the commitments, in the form of 0.13.2 for older blocks. -/
structure Commits (h : Hashes) (hdr : Hdr) (l : List ((Tx × Receipt) × List Event)) : Prop where
  transactions : transactionCommitment h (l.map (·.1.1)) (atLeast0132 hdr.version) = .ok hdr.transactionCommitment
  events : eventCommitment h (eventList l) (atLeast0132 hdr.version) = .ok hdr.eventCommitment
  transactionCount : l.length = hdr.transactionCount
  eventCount : (flatEvents (eventList l)).length = hdr.eventCount

/-- C70, after the checkpoint: a block that is stored reads, whichever way, as transactions and events that its header commits to, with the transactions as
sent and with each event at its transaction. The other blocks read as before. -/
theorem C70_track {h : Hashes} {db db' : DB} (hr : Reach db) {hdr : Hdr} {txs : List (Tx × Receipt)} {events : List (F × Event)}
    (e : storeBlock h db hdr txs events = some db') :
    (∃ l, Reads db' hdr.number l ∧ Commits h hdr l ∧ l.map (·.1.1) = txs.map (·.1) ∧ (flatEvents (eventList l)).Perm events ∧
      (∀ x ∈ l, x.2 = (events.filter fun p => p.1 == x.1.1.hash).map (·.2)) ∧ ∀ x ∈ l, x.1.2.txHash = x.1.1.hash) ∧
    ∀ m, m ≠ hdr.number → SameReads db' db m := by
  obtain ⟨h1, h2, h3, h4, db1, h5, h6⟩ := storeBlock_some.1 e
  have hr1 := Reach.header hr _ h5
  have hi := inv_reach hr
  have hnone : db.header hdr.number = none := by
    unfold DB.insertHeader at h5
    split at h5
    · cases h5
    · rename_i k
      simpa using k
  have hrow : db1.row hdr.number = none := by
    have : db.row hdr.number = none := by
      rw [row_none]
      intro r hr hn
      have := hi.header r hr
      rw [hn, hnone] at this
      cases this
    unfold DB.row at *
    rw [(insertHeader_rest h5).1]
    exact this
  have hempty : db1.transactionsFor hdr.number = some [] := by
    unfold DB.transactionsFor
    rw [header_insert h5, if_pos rfl, hrow]
    rfl
  have hl : ∃ l : List ((Tx × Receipt) × List Event), l = txs.map fun p => (withHash p, eventsOf events p.1.hash) := ⟨_, rfl⟩
  obtain ⟨l, hl⟩ := hl
  have m1 : l.map (·.1) = txs.map withHash := by rw [hl, List.map_map]; rfl
  have m2 : l.map (·.2) = txs.map fun p => eventsOf events p.1.hash := by rw [hl, List.map_map]; rfl
  have m3 : l.map (·.1.1) = txs.map (·.1) := by rw [hl, List.map_map]; rfl
  have m4 : eventList l = (txs.map (·.1.hash)).map fun x => (x, eventsOf events x) := by unfold eventList; rw [hl, List.map_map, List.map_map]; rfl
  rw [← m1, ← m2] at h6
  obtain ⟨hreads, hsame⟩ := C69_store hr1 l hempty h6
  have hnd : (txs.map (·.1.hash)).Nodup := by
    have := insertData_nodup h6
    rw [m1, List.map_map] at this
    exact this
  unfold verifyTracked at h4
  simp only [Bool.and_eq_true, beq_iff_eq, List.length_map] at h4
  have hperm : (flatEvents (eventList l)).Perm events := by
    rw [m4]
    exact grouped_perm _ _ hnd (keys_subset hnd h4.1)
  refine ⟨⟨l, hreads, ⟨?_, ?_, ?_, ?_⟩, m3, hperm, ?_, ?_⟩, ?_⟩
  · rw [m3, ← map_withHash]
    exact verifyTransactions_ok h3
  · have := verifyEvents_ok h4.2
    unfold eventCommitment at this ⊢
    rw [m4, ← flat_filter]
    exact this
  · rw [hl, List.length_map]; exact h1
  · rw [hperm.length_eq]; exact h2
  · intro x hx
    rw [hl] at hx
    obtain ⟨p, _, rfl⟩ := List.mem_map.1 hx
    rfl
  · intro x hx
    rw [hl] at hx
    obtain ⟨p, _, rfl⟩ := List.mem_map.1 hx
    rfl
  · intro m hm
    have h := hsame m hm
    have h' := same_of_row (inv_reach hr1) hi (n := m) (by rw [header_insert h5, if_neg hm]) (by unfold DB.row; rw [(insertHeader_rest h5).1])
    exact ⟨h.data.trans h'.data, h.transactions.trans h'.transactions, h.hashes.trans h'.hashes, h.events.trans h'.events,
      fun i => (h.index i).trans (h'.index i)⟩

/-- C70, agreement: two bodies that the same header commits to have the same transactions, with the same signatures, and the same events at each, or the hash
functions fail on them. So nodes with the same header read the same, whoever sent it. -/
theorem C70_agree (h : Hashes) {hdr : Hdr} {l l' : List ((Tx × Receipt) × List Event)} (hc : Commits h hdr l) (hc' : Commits h hdr l')
    (hd : (l.map (·.1.1.hash)).Nodup)
    (hl : l.length < 2 ^ 64 ∧ l'.length < 2 ^ 64) (he : hdr.eventCount < 2 ^ 64)
    (hs : ∀ x ∈ l ++ l', (hashedSignature (atLeast0132 hdr.version) x.1.1).length < 2 ^ 64) (ho : ∀ x ∈ l ++ l', ∀ e ∈ x.2, e.Ok) :
    (l.map fun x => (x.1.1.hash, hashedSignature (atLeast0132 hdr.version) x.1.1, x.2)) =
      (l'.map fun x => (x.1.1.hash, hashedSignature (atLeast0132 hdr.version) x.1.1, x.2)) ∨
    Broken h (transactionsQ h (atLeast0132 hdr.version) (l.map (·.1.1))) (transactionsQ h (atLeast0132 hdr.version) (l'.map (·.1.1))) ∨
    Broken h (eventsQ h (atLeast0132 hdr.version) (eventList l)) (eventsQ h (atLeast0132 hdr.version) (eventList l')) := by
  have hv := not_before hdr.version
  generalize hvv : atLeast0132 hdr.version = v at *
  have ht := hc.transactions.trans hc'.transactions.symm
  have hev := hc.events.trans hc'.events.symm
  rw [hvv] at ht hev
  have sg : ∀ l0 : List ((Tx × Receipt) × List Event), (∀ x ∈ l0, x ∈ l ++ l') → ∀ t ∈ l0.map (·.1.1), (hashedSignature v t).length < 2 ^ 64 := by
    intro l0 hsub t ht
    obtain ⟨x, hx, rfl⟩ := List.mem_map.1 ht
    exact hs x (hsub x hx)
  rcases C66_transactions h (by simpa using hl.1) (by simpa using hl.2) (sg l fun x hx => List.mem_append_left _ hx)
    (sg l' fun x hx => List.mem_append_right _ hx) ht with k | k
  rotate_left
  · exact .inr (.inl k)
  have ev : ∀ l0 : List ((Tx × Receipt) × List Event), (∀ x ∈ l0, x ∈ l ++ l') → ∀ p ∈ eventList l0, ∀ e ∈ p.2, e.Ok := by
    intro l0 hsub p hp
    obtain ⟨x, hx, rfl⟩ := List.mem_map.1 hp
    exact ho x (hsub x hx)
  rcases C66_events h (by rw [hc.eventCount]; exact he) (by rw [hc'.eventCount]; exact he) (ev l fun x hx => List.mem_append_left _ hx)
    (ev l' fun x hx => List.mem_append_right _ hx) hev with g | g
  rotate_left
  · exact .inr (.inr g)
  left
  have inj : ∀ a b : F × Event, eventCovered v a = eventCovered v b → a = b := by
    intro a b e
    unfold eventCovered at e
    rw [hv] at e
    simp only [Bool.false_eq_true, if_false, Prod.mk.injEq, Option.some.injEq] at e
    exact Prod.ext e.1 e.2
  have g' : flatEvents (eventList l) = flatEvents (eventList l') := by
    generalize flatEvents (eventList l) = x at g
    generalize flatEvents (eventList l') = y at g
    induction x generalizing y with
    | nil => cases y with
      | nil => rfl
      | cons b y => cases g
    | cons a x ih => cases y with
      | nil => cases g
      | cons b y =>
        simp only [List.map_cons, List.cons.injEq] at g
        rw [inj _ _ g.1, ih _ g.2]
  have keys : ∀ l0 : List ((Tx × Receipt) × List Event), (eventList l0).map (·.1) = l0.map (·.1.1.hash) := by
    intro l0; unfold eventList; rw [List.map_map]; rfl
  have hk : l.map (·.1.1.hash) = l'.map (·.1.1.hash) := by
    have := congrArg (List.map Prod.fst) k
    simpa [List.map_map, Function.comp_def] using this
  have hgr := C66_events_grouped (by rw [keys]; exact hd) (by rw [keys, keys]; exact hk) g'
  unfold eventList at hgr
  rw [List.map_map, List.map_map] at k
  clear g g' ht hev hc hc' hd hl hs ho sg ev hk keys
  induction l generalizing l' with
  | nil => cases l' with
    | nil => rfl
    | cons b y => cases hgr
  | cons a x ih => cases l' with
    | nil => cases hgr
    | cons b y =>
      simp only [List.map_cons, List.cons.injEq, Function.comp_apply, Prod.mk.injEq] at hgr k ⊢
      exact ⟨⟨hgr.1.1, k.1.2, hgr.1.2⟩, ih k.2 hgr.2⟩

/-- C70, receipts: they are not checked. If a block is stored, then it is also stored with any other receipts, whatever the header's receipt commitment, and is
read with these. -/
theorem C70_receipts_violated {h : Hashes} {db db' : DB} (hr : Reach db) {hdr : Hdr} {txs txs' : List (Tx × Receipt)} {events : List (F × Event)}
    (e : storeBlock h db hdr txs events = some db') (ht : txs'.map (·.1) = txs.map (·.1)) :
    ∃ db'', storeBlock h db hdr txs' events = some db'' ∧ db''.transactionsFor hdr.number = some (txs'.map withHash) := by
  obtain ⟨h1, h2, h3, h4, db1, h5, h6⟩ := storeBlock_some.1 e
  have hk : txs'.map (·.1.hash) = txs.map (·.1.hash) := by
    have := congrArg (List.map Tx.hash) ht
    simpa [List.map_map, Function.comp_def] using this
  have he : (txs'.map fun p => eventsOf events p.1.hash) = txs.map fun p => eventsOf events p.1.hash := by
    have := congrArg (List.map (eventsOf events)) hk
    simpa [List.map_map, Function.comp_def] using this
  have hlen : txs'.length = txs.length := by simpa using congrArg List.length ht
  have hins : ∃ db'', db1.insertData hdr.number (txs'.map withHash) (some (txs'.map fun p => eventsOf events p.1.hash)) = some db'' := by
    rw [he]
    have hk' : (txs'.map withHash).map (·.1.hash) = (txs.map withHash).map (·.1.hash) := by
      rw [List.map_map, List.map_map]; exact hk
    have hem : (txs'.map withHash).isEmpty = (txs.map withHash).isEmpty := by
      rw [Bool.eq_iff_iff, List.isEmpty_iff_length_eq_zero, List.isEmpty_iff_length_eq_zero, List.length_map, List.length_map, hlen]
    exact insertData_again h6 hk' hem
  obtain ⟨db'', hins⟩ := hins
  have hs : storeBlock h db hdr txs' events = some db'' := by
    refine storeBlock_some.2 ⟨hlen.trans h1, h2, ?_, by rw [hk]; exact h4, db1, h5, hins⟩
    unfold verifyTransactions at h3 ⊢
    rw [map_withHash] at h3 ⊢
    rw [ht]
    exact h3
  refine ⟨db'', hs, ?_⟩
  have hi'' := insertData_cases hins
  have hh : db''.header hdr.number = some hdr := by
    have : db1.header hdr.number = some hdr := by rw [header_insert h5, if_pos rfl]
    unfold DB.header at this ⊢
    rw [hi''.1]; exact this
  obtain ⟨-, ⟨k1, -, k2, -⟩ | ⟨-, -, k, k2, -⟩⟩ := hi''
  · have hnone : db1.row hdr.number = none := by
      obtain ⟨⟨l, hl, -, hm, -⟩, -⟩ := C70_track hr hs
      have := hl.transactions
      have hl0 : l = [] := by
        have : txs' = [] := by simpa using k1
        rw [this] at hm
        simpa using hm
      rw [row_none]
      intro r hr1 hn
      have hb : db''.row hdr.number ≠ none := by
        rw [Ne, row_none]
        exact fun k => k r (by rw [k2]; exact hr1) hn
      obtain ⟨b, hb⟩ := Option.ne_none_iff_exists'.1 hb
      unfold DB.transactionsFor at this
      rw [hh, hb, hl0] at this
      obtain ⟨l1, l2⟩ := row_mem hb
      rw [k2, (insertHeader_rest h5).1] at l1
      exact (inv_reach hr).full b l1 (Option.some.inj this)
    unfold DB.transactionsFor
    have : db''.row hdr.number = none := by unfold DB.row at *; rw [k2]; exact hnone
    rw [hh, this, k1]
    rfl
  · unfold DB.transactionsFor
    rw [row_append (r := ⟨hdr.number, _, _⟩) k k2, if_pos rfl, hh]
    rfl

/-! ## Up to the checkpoint -/

/-- What `storeTransactions` does. -/
theorem storeTransactions_some {h : Hashes} {db db' : DB} {n : Nat} {txs : List (Tx × Receipt)} :
    storeTransactions h db n txs = some db' ↔
    ∃ hdr, db.header n = some hdr ∧ verifyTransactions h hdr (txs.map withHash) = true ∧ db.insertData n (txs.map withHash) none = some db' := by
  unfold storeTransactions
  rw [Option.bind_eq_some_iff]
  constructor
  · rintro ⟨hdr, h1, h2⟩
    split at h2
    · rename_i k; exact ⟨hdr, h1, k, h2⟩
    · cases h2
  · rintro ⟨hdr, h1, h2, h3⟩
    exact ⟨hdr, h1, by rw [if_pos h2]; exact h3⟩

theorem storeEvents_some {h : Hashes} {db db' : DB} {n : Nat} {es : List (F × List Event)} :
    storeEvents h db n es = some db' ↔ ∃ hdr, db.header n = some hdr ∧ verifyEvents h hdr es = true ∧ db' = db.updateEvents n (es.map (·.2)) := by
  unfold storeEvents
  rw [Option.bind_eq_some_iff]
  constructor
  · rintro ⟨hdr, h1, h2⟩
    split at h2
    · rename_i k; exact ⟨hdr, h1, k, (Option.some.inj h2).symm⟩
    · cases h2
  · rintro ⟨hdr, h1, h2, h3⟩
    exact ⟨hdr, h1, by rw [if_pos h2, h3]⟩

/-- C70, up to the checkpoint, partial: as after it, if every transaction of the block has events. Missing: blocks where some transaction has none, see
`C70_checkpoint_violated`; the counts are those of the streams (C64). -/
theorem C70_checkpoint_partial {h : Hashes} {db db1 db2 : DB} (hr : Reach db) {n : Nat} {hdr : Hdr} (hh : db.header n = some hdr)
    (hn : db.transactionsFor n = some []) {txs : List (Tx × Receipt)} {es : List (F × List Event)}
    (e1 : storeTransactions h db n txs = some db1) (e2 : storeEvents h db1 n es = some db2) (hk : es.map (·.1) = txs.map (·.1.hash)) :
    (∃ l, Reads db2 n l ∧ l.map (·.1) = txs.map withHash ∧ eventList l = es ∧
      transactionCommitment h (l.map (·.1.1)) (atLeast0132 hdr.version) = .ok hdr.transactionCommitment ∧
      eventCommitment h (eventList l) (atLeast0132 hdr.version) = .ok hdr.eventCommitment) ∧
    ∀ m, m ≠ n → SameReads db2 db m := by
  obtain ⟨hdr1, a1, a2, a3⟩ := storeTransactions_some.1 e1
  obtain ⟨hdr2, b1, b2, b3⟩ := storeEvents_some.1 e2
  have hr1 := Reach.transactions hr _ _ a3
  have hi := inv_reach hr
  have hh1 : ∀ m, db1.header m = db.header m := by intro m; unfold DB.header; rw [(insertData_cases a3).1]
  rw [hh] at a1
  cases a1
  rw [hh1, hh] at b1
  cases b1
  have hrow : db.row n = none := by
    rcases hb : db.row n with _ | b
    · rfl
    · unfold DB.transactionsFor at hn
      rw [hh, hb] at hn
      exact absurd (Option.some.inj hn) (hi.full b (row_mem hb).1)
  have hrows : ∀ m, (m = n → (db1.row m).elim [] (·.transactions) = txs.map withHash) ∧ (m ≠ n → db1.row m = db.row m) := by
    intro m
    obtain ⟨-, ⟨k1, -, k2, -⟩ | ⟨-, -, k, k2, -⟩⟩ := insertData_cases a3
    · have : db1.row m = db.row m := by unfold DB.row; rw [k2]
      refine ⟨?_, fun _ => this⟩
      rintro rfl
      rw [this, hrow, k1]; rfl
    · have := row_append (r := ⟨n, _, none⟩) k k2 m
      refine ⟨?_, fun hm => by rw [this, if_neg hm]⟩
      rintro rfl
      rw [this, if_pos rfl]; rfl
  have hl : ∃ l : List ((Tx × Receipt) × List Event), l = (txs.map withHash).zip (es.map (·.2)) := ⟨_, rfl⟩
  obtain ⟨l, hl⟩ := hl
  have hlen : (txs.map withHash).length = (es.map (·.2)).length := by
    have := congrArg List.length hk
    simp only [List.length_map] at this ⊢
    omega
  have m1 : l.map (·.1) = txs.map withHash := by rw [hl]; exact List.map_fst_zip (by omega)
  have m2 : l.map (·.2) = es.map (·.2) := by rw [hl]; exact List.map_snd_zip (by omega)
  have m3 : eventList l = es := by
    have q : (eventList l).map (·.1) = es.map (·.1) := by
      have h0 := congrArg (List.map fun p : Tx × Receipt => p.1.hash) m1
      rw [List.map_map, List.map_map] at h0
      unfold eventList
      rw [List.map_map, hk]
      exact h0
    have q' : (eventList l).map (·.2) = es.map (·.2) := by unfold eventList; rw [List.map_map]; exact m2
    rw [← zip_pairs (eventList l), q, q', zip_pairs]
  have ht1 : db1.transactionsFor n = some (l.map (·.1)) := by
    unfold DB.transactionsFor
    rw [hh1, hh, (hrows n).1 rfl, m1]; rfl
  obtain ⟨c1, c2⟩ := C69_events hr1 l ht1
  rw [m2, ← b3] at c1 c2
  refine ⟨⟨l, c1, m1, m3, ?_, ?_⟩, ?_⟩
  · have h0 := verifyTransactions_ok a2
    rw [← m1, List.map_map] at h0
    exact h0
  · rw [m3]; exact verifyEvents_ok b2
  · intro m hm
    have g := c2 m hm
    have g' := same_of_row (inv_reach hr1) hi (hh1 m) ((hrows m).2 hm)
    exact ⟨g.data.trans g'.data, g.transactions.trans g'.transactions, g.hashes.trans g'.hashes, g.events.trans g'.events,
      fun i => (g.index i).trans (g'.index i)⟩

/-- C70, up to the checkpoint: the events are stored by position and not by transaction. If a block has a transaction without events then after the events were
accepted and stored the events of the block cannot be read, the last transactions are missing from its data and from the lookups with receipt, and the others
are read with the events of whichever group has their position. -/
theorem C70_checkpoint_violated {h : Hashes} {db db' : DB} (hr : Reach db) {n : Nat} {l : List (Tx × Receipt)} (hl : db.transactionsFor n = some l)
    {es : List (F × List Event)} (e : storeEvents h db n es = some db') (hlen : es.length < l.length) :
    db'.eventsFor n = .error () ∧ db'.dataFor n = some (l.zip (es.map (·.2))) ∧
    (∀ i p, l[i]? = some p → es.length ≤ i → db'.withReceipt p.1.hash = .error ()) ∧
    ∀ (i : Nat) p q, l[i]? = some p → es[i]? = some q → db'.withReceipt p.1.hash = .ok (some (n, p.1, p.2, q.2)) := by
  obtain ⟨hdr, b1, b2, rfl⟩ := storeEvents_some.1 e
  have hi := inv_reach hr
  obtain ⟨b, hb⟩ : ∃ b, db.row n = some b := by
    rcases hb : db.row n with _ | b
    · unfold DB.transactionsFor at hl
      rw [b1, hb] at hl
      cases hl
      simp at hlen
    · exact ⟨b, rfl⟩
  have hbl : b.transactions = l := by
    unfold DB.transactionsFor at hl
    rw [b1, hb] at hl
    exact Option.some.inj hl
  have hh : (db.updateEvents n (es.map (·.2))).header n = some hdr := b1
  have hrow : (db.updateEvents n (es.map (·.2))).row n = some { b with events := some (es.map (·.2)) } := by
    rw [row_update, if_pos rfl, hb]; rfl
  have hinf : (db.updateEvents n (es.map (·.2))).infos n = (l.map (·.1.hash)).zipIdx := by
    have : (db.updateEvents n (es.map (·.2))).infos n = db.infos n := rfl
    rw [this, infos_eq hi]
    unfold DB.keys
    rw [hb, ← hbl]; rfl
  have hj : ∀ (i : Nat) p, l[i]? = some p → (db.updateEvents n (es.map (·.2))).joined p.1.hash = some ({ b with events := some (es.map (·.2)) }, i) := by
    intro i p hp
    have hm : (p.1.hash, n, i) ∈ db.hashes := by
      rw [hash_mem hi]
      unfold DB.keys
      rw [hb]
      simp [hbl, hp]
    have hf := find_unique hi.nodup hm
    unfold DB.joined
    show (db.hashes.find? _).bind _ = _
    rw [hf]
    simp [hrow]
  refine ⟨?_, ?_, ?_, ?_⟩
  · unfold DB.eventsFor
    rw [hh, hrow, hinf]
    simp only [Option.isNone_some, Bool.false_eq_true, if_false, Option.bind_some, Option.getD_some, List.length_map, List.length_zipIdx]
    rw [if_pos (by omega)]
  · unfold DB.dataFor
    rw [hh, hrow]
    simp [hbl]
  · intro i p hp hi
    unfold DB.withReceipt
    rw [hj i p hp]
    simp [hbl, hp, List.getElem?_eq_none hi]
  · intro i p q hp hq
    unfold DB.withReceipt
    rw [hj i p hp]
    simp [hbl, hp, hq, (row_mem hb).2]

/-- C70, while syncing: a header that was stored makes its block read as one without transactions, whatever the header says. -/
theorem C70_header_violated {db db' : DB} (hr : Reach db) {hdr : Hdr} (e : db.insertHeader hdr = some db') : Reads db' hdr.number [] := by
  have hi := inv_reach hr
  have hnone : db.header hdr.number = none := by
    unfold DB.insertHeader at e
    split at e
    · cases e
    · rename_i k
      simpa using k
  have hrow : db'.row hdr.number = none := by
    have : db.row hdr.number = none := by
      rw [row_none]
      intro r hr hn
      have := hi.header r hr
      rw [hn, hnone] at this
      cases this
    unfold DB.row at *
    rw [(insertHeader_rest e).1]
    exact this
  refine reads_of_row (inv_reach (.header hr _ e)) (hd := hdr) (by rw [header_insert e, if_pos rfl]) ?_ ?_ <;> rw [hrow] <;> rfl

/-- C70, while syncing: with its transactions and before its events, a block reads as having none in one way, as having some in another, and fails in others. -/
theorem C70_transactions_violated {h : Hashes} {db db' : DB} (hr : Reach db) {n : Nat} {txs : List (Tx × Receipt)}
    (hne : txs ≠ []) (e : storeTransactions h db n txs = some db') :
    db'.transactionsFor n = some (txs.map withHash) ∧ db'.dataFor n = some [] ∧ db'.eventsFor n = .error () ∧
    ∀ p ∈ txs, db'.withReceipt p.1.hash = .error () := by
  obtain ⟨hdr, a1, a2, a3⟩ := storeTransactions_some.1 e
  have hr1 := Reach.transactions hr _ _ a3
  have hi1 := inv_reach hr1
  obtain ⟨hhd, ⟨k1, -⟩ | ⟨-, -, k, k2, -⟩⟩ := insertData_cases a3
  · exact absurd (by simpa using k1) hne
  · have hrow := row_append (r := ⟨n, txs.map withHash, none⟩) k k2 n
    rw [if_pos rfl] at hrow
    have hh : db'.header n = some hdr := by unfold DB.header at *; rw [hhd]; exact a1
    refine ⟨?_, ?_, ?_, ?_⟩
    · unfold DB.transactionsFor; rw [hh, hrow]; rfl
    · unfold DB.dataFor; rw [hh, hrow]; simp
    · unfold DB.eventsFor
      rw [hh, hrow, infos_eq hi1]
      unfold DB.keys
      rw [hrow]
      have : 0 ≠ txs.length := by
        intro k
        exact hne (List.eq_nil_of_length_eq_zero k.symm)
      simp [this]
    · intro p hp
      obtain ⟨i, hi⟩ := List.mem_iff_getElem?.1 hp
      have hj : db'.joined p.1.hash = some (⟨n, txs.map withHash, none⟩, i) := by
        rw [joined_some hi1]
        refine ⟨hrow, ?_⟩
        simp [hi, withHash]
      unfold DB.withReceipt
      rw [hj]
      simp [hi]

/-! ## The hypotheses are met -/

/-- Hash functions for the examples. -/
def toyHashes : Hashes where
  ped a b := a + 2 * b + 1
  two a b := a + 3 * b + 2
  many l := l.foldl (fun x y => 7 * x + y) 3
  keccak s := s.length

def toyEvents : List (F × Event) := [(11, ⟨1, [2], [3]⟩), (11, ⟨4, [], [5]⟩)]
def toyTxs : List (Tx × Receipt) := [(toyTx 10, toyRc 10), (toyTx 11, toyRc 11)]

def get0 : Except Verif.Trie.Err F → F
  | .ok x => x
  | .error _ => 0

/-- The header of a block of two transactions, the second with events. -/
def toyHeader : Hdr where
  number := 3
  version := ⟨0, 13, 4, 0⟩
  transactionCommitment := get0 (transactionCommitment toyHashes (toyTxs.map (·.1)) ⟨0, 13, 4, 0⟩)
  eventCommitment := get0 (eventCommitment toyHashes [(11, [⟨1, [2], [3]⟩, ⟨4, [], [5]⟩])] ⟨0, 13, 4, 0⟩)
  receiptCommitment := 77
  transactionCount := 2
  eventCount := 2

example : (storeBlock toyHashes ⟨[], [], [], 0⟩ toyHeader toyTxs toyEvents).isSome = true := by decide +kernel
example : (storeBlock toyHashes ⟨[], [], [], 0⟩ toyHeader toyTxs toyEvents.reverse).isSome = false := by decide +kernel
example : (((⟨[], [], [], 0⟩ : DB).insertHeader toyHeader).bind fun db => (storeTransactions toyHashes db 3 toyTxs).bind fun db =>
  storeEvents toyHashes db 3 [(11, [⟨1, [2], [3]⟩, ⟨4, [], [5]⟩])]).isSome = true := by decide +kernel

end Verif.Body
