import Verif.Events.Pages
/-
C21, C22: Bloom filters have no false negatives. C23: pages concatenate to the answer. C24: paging ends. C25: pages stay in
the range. C27: the index survives restarts. C48: queries during the insertion of a block.
-/
namespace Verif.Events

/-! ### a small configuration for the examples -/

deriving instance DecidableEq for Except

/-- Ranges of 8 blocks, filters of 8 bits. -/
def tiny : Cfg where
  rangeBytes := 1
  bloomBytes := 1
  rangePos := by decide
  bloomPos := by decide
  sip0 := fun x => UInt64.ofNat x.toNat
  sip1 := fun _ => 0

def ev (addr : Nat) (keys : List Nat) : Event := { data := [], addr := BitVec.ofNat 256 addr, keys := keys.map (BitVec.ofNat 256) }

/-- A block with one transaction per list of events. -/
def blk (hash : Nat) (txs : List (List Event)) : Body := { hash, txs := txs.zipIdx.map fun t => (100 * hash + t.2, t.1) }

/-- The events of a body. -/
def Body.events (b : Body) : List Event := b.txs.flatMap (·.2)

/-! ### C21 -/

/-- Whatever else is in the aggregate filter and whatever else is in the block: if an event of the block is wanted, the
block is reported. -/
theorem C21_block_bloom_no_false_negatives (c : Cfg) (a a' : Agg) (ok : a.Ok c) (n : Nat) (evs : List Event)
    (hi : aggInsert c a (blockBloom c evs) n = some a') (addrs : List Felt) (keys : List (List Felt)) (hk : keys.length ≤ 16)
    (e : Event) (he : e ∈ evs) (hw : wanted addrs keys e = true) : n ∈ aggCheck c a' addrs keys := by
  obtain ⟨h1, h2, h3, h4, h5, h6⟩ := aggInsert_some ok (blockBloom_bit c evs).1 hi
  have hto := ok.to
  have hp := len_pos c
  have hb : n - a.fromBlock < c.len := by omega
  have := check_of_bits h1 addrs keys hk hb (e := e) (by
    intro x hx r hr
    rw [h6 r _ (indices_lt c x r hr) hb]
    exact .inr ⟨by omega, ((blockBloom_bit c evs).2 r).2 ⟨e, he, x, hx, hr⟩⟩) hw
  rw [h2, show a.fromBlock + (n - a.fromBlock) = n by omega] at this
  exact this

example : ∃ a', aggInsert tiny (aggNew tiny 8) (blockBloom tiny [ev 1 [5, 6], ev 2 []]) 11 = some a' ∧
    wanted [1#256] [[], [6#256, 7#256]] (ev 1 [5, 6]) = true ∧ 11 ∈ aggCheck tiny a' [1#256] [[], [6#256, 7#256]] :=
  ⟨_, rfl, by decide, by decide +kernel⟩

/-! ### C22 -/

/-- Inserting filters of blocks one after the other. -/
def insertAll (c : Cfg) (a : Agg) (xs : List (Nat × List Byte)) : Option Agg := xs.foldlM (fun a x => aggInsert c a x.2 x.1) a

/-- After any insertions, a block of the range is returned for a set of keys exactly if some key has all its bits in the
filters that were inserted for this very block. -/
theorem C22_aggregate_exact (c : Cfg) (from_ : Nat) (xs : List (Nat × List Byte)) (hx : ∀ x ∈ xs, x.2.length = c.bloomBytes) (a : Agg)
    (h : insertAll c (aggNew c from_) xs = some a) (keys : List Felt) (hk : keys ≠ []) (b : Nat) (hb : b < c.len) :
    getBit (blocksForKeys c a keys) b = true ↔
      ∃ k ∈ keys, ∀ r ∈ indicesForKey c k, ∃ x ∈ xs, x.1 = from_ + b ∧ getBit x.2 r = true := by
  have key : ∀ (xs : List (Nat × List Byte)) (a0 : Agg), a0.Ok c → (∀ x ∈ xs, x.2.length = c.bloomBytes) → insertAll c a0 xs = some a →
      a.Ok c ∧ a.fromBlock = a0.fromBlock ∧ ∀ r b, r < c.bits → b < c.len →
        (aggBit c a r b = true ↔ aggBit c a0 r b = true ∨ ∃ x ∈ xs, x.1 = a0.fromBlock + b ∧ getBit x.2 r = true) := by
    intro xs
    induction xs with
    | nil =>
      intro a0 ok _ hi
      simp only [insertAll, List.foldlM_nil, Option.pure_def, Option.some.injEq] at hi
      subst hi
      exact ⟨ok, rfl, by simp⟩
    | cons x xs ih =>
      intro a0 ok hx hi
      simp only [insertAll, List.foldlM_cons] at hi
      cases hins : aggInsert c a0 x.2 x.1 with
      | none => rw [hins] at hi; simp at hi
      | some a1 =>
        rw [hins] at hi
        obtain ⟨h1, h2, h3, h4, h5, h6⟩ := aggInsert_some ok (hx x (by simp)) hins
        obtain ⟨g1, g2, g3⟩ := ih a1 h1 (fun y hy => hx y (by simp [hy])) hi
        refine ⟨g1, by omega, ?_⟩
        intro r b hr hb
        rw [g3 r b hr hb, h6 r b hr hb, h2]
        simp only [List.mem_cons, exists_eq_or_imp, or_assoc]
        rw [eq_comm (a := x.1)]
  obtain ⟨h1, h2, h3⟩ := key xs _ (aggNew_ok c from_) hx h
  rw [(blocksForKeys_spec h1 keys).2 b hb]
  simp only [hk, false_or]
  constructor
  · rintro ⟨k, hk, hall⟩
    refine ⟨k, hk, fun r hr => ?_⟩
    rcases (h3 r b (indices_lt c k r hr) hb).1 (hall r hr) with h | h
    · rw [aggNew_bit] at h; simp at h
    · exact h
  · rintro ⟨k, hk, hall⟩
    refine ⟨k, hk, fun r hr => ?_⟩
    rw [h3 r b (indices_lt c k r hr) hb]
    exact .inr (hall r hr)

/-- Inserting never fails inside the range. -/
theorem C22_insert_total (c : Cfg) (from_ : Nat) (xs : List (Nat × List Byte)) (hx : ∀ x ∈ xs, x.2.length = c.bloomBytes)
    (hr : ∀ x ∈ xs, from_ ≤ x.1 ∧ x.1 < from_ + c.len) : ∃ a, insertAll c (aggNew c from_) xs = some a := by
  have key : ∀ (xs : List (Nat × List Byte)) (a0 : Agg), a0.Ok c → a0.fromBlock = from_ → (∀ x ∈ xs, x.2.length = c.bloomBytes) →
      (∀ x ∈ xs, from_ ≤ x.1 ∧ x.1 < from_ + c.len) → ∃ a, insertAll c a0 xs = some a := by
    intro xs
    induction xs with
    | nil => intro a0 _ _ _ _; exact ⟨a0, rfl⟩
    | cons x xs ih =>
      intro a0 ok hf hx hr
      have hxr := hr x (by simp)
      have hto := ok.to
      obtain ⟨a1, h1⟩ := aggInsert_isSome (c := c) (a := a0) x.2 (n := x.1) (by omega) (by omega)
      obtain ⟨g1, g2, -⟩ := aggInsert_some ok (hx x (by simp)) h1
      obtain ⟨a, ha⟩ := ih a1 g1 (by omega) (fun y hy => hx y (by simp [hy])) (fun y hy => hr y (by simp [hy]))
      exact ⟨a, by simp only [insertAll, List.foldlM_cons, h1]; exact ha⟩
  exact key xs _ (aggNew_ok c from_) rfl hx hr

example : ∃ a, insertAll tiny (aggNew tiny 8) [(9, [131#8]), (12, [129#8]), (9, [64#8])] = some a ∧
    getBit (blocksForKeys tiny a [7#256]) 4 = true ∧ getBit (blocksForKeys tiny a [6#256]) 4 = false ∧
    getBit (blocksForKeys tiny a [6#256]) 1 = true := ⟨_, rfl, by decide, by decide, by decide⟩

/-! ### C23 -/

theorem headOf_answer (chain : List Body) (q : Constraints) (a : Nat) :
    answer chain q.addrs q.keys a (headOf chain q.toBlock) = answer chain q.addrs q.keys a (lastOf chain q.toBlock) :=
  answer_head ..

/-- Following the tokens gives the answer for the chain at the end. Between the pages anything may happen as long as blocks
are only added (restarts, other queries, cache evictions): the events are those of the chain at the time of the last page. -/
theorem C23_pages_concatenate (c : Cfg) (limit : Nat) (hl : 1 ≤ limit) (q : Constraints) (hp : 1 ≤ q.pageSize)
    (hk : q.keys.length ≤ 16) (ws : List (List Op × Sys)) (hw : ∀ w ∈ ws, Reached c w.1 w.2)
    (hg : ws.Pairwise fun w w' => (Track.run w.1).chain <+: (Track.run w'.1).chain)
    (evs : List Emitted) (h : Paged c limit q none (ws.map (·.2)) evs) :
    ∃ w, ws.getLast? = some w ∧
      evs = answer (Track.run w.1).chain q.addrs q.keys (q.fromBlock.getD 0) (lastOf (Track.run w.1).chain q.toBlock) := by
  obtain ⟨w, h1, h2⟩ := paged_spec hl hp hk ws h hw hg (fun w _ => by simp [Valid, startOf])
  refine ⟨w, h1, ?_⟩
  rw [h2, headOf_answer]
  simp [startOf]

/-- The special case of a chain that does not change. -/
theorem C23_pages_concatenate_fixed (c : Cfg) (limit : Nat) (hl : 1 ≤ limit) (q : Constraints) (hp : 1 ≤ q.pageSize)
    (hk : q.keys.length ≤ 16) (ops : List Op) (s : Sys) (hr : Reached c ops s) (k : Nat) (evs : List Emitted)
    (h : Paged c limit q none (List.replicate k s) evs) :
    evs = answer (Track.run ops).chain q.addrs q.keys (q.fromBlock.getD 0) (lastOf (Track.run ops).chain q.toBlock) := by
  obtain ⟨w, h1, h2⟩ := C23_pages_concatenate c limit hl q hp hk (List.replicate k (ops, s))
    (fun w hw => by rw [(List.mem_replicate.1 hw).2]; exact hr)
    (List.pairwise_replicate.2 (.inr (List.prefix_refl _))) evs (by rw [List.map_replicate]; exact h)
  have := (List.mem_replicate.1 (List.mem_of_getLast? h1)).2
  subst this
  exact h2

/-- Check of `CrashOk` by computation. -/
def crashOkB (t : Track) : List Op → Bool
  | [] => true
  | op :: ops => (!decide (op = .crash) || !(t.stale && t.saved == t.chain.length)) && crashOkB (t.step op) ops

theorem crashOk_of_check {ops : List Op} (h : crashOkB {} ops = true) : CrashOk ops := by
  have key : ∀ (pre : List Op) (t : Track) (post : List Op), crashOkB t (pre ++ .crash :: post) = true →
      ¬ ((pre.foldl Track.step t).stale = true ∧ (pre.foldl Track.step t).saved = (pre.foldl Track.step t).chain.length) := by
    intro pre
    induction pre with
    | nil =>
      intro t post h
      simp only [List.nil_append, crashOkB, decide_true, Bool.not_true, Bool.false_or, Bool.and_eq_true, Bool.not_eq_true',
        Bool.and_eq_false_iff, beq_eq_false_iff_ne] at h
      simp only [List.foldl_nil]
      rintro ⟨h1, h2⟩
      rcases h.1 with h3 | h3
      · rw [h1] at h3; simp at h3
      · exact h3 h2
    | cons op pre ih =>
      intro t post h
      simp only [List.cons_append, crashOkB, Bool.and_eq_true] at h
      exact ih (t.step op) post h.2
  intro pre post he
  rw [he] at h
  exact key pre {} post h

namespace Example

/-- Two blocks with three matching events, a crash, then a third block. -/
def ops1 : List Op := [.block (blk 1 [[ev 1 [5]], [ev 2 [5], ev 1 [5]]]), .block (blk 2 []), .crash]
def ops2 : List Op := ops1 ++ [.block (blk 3 [[ev 1 [6], ev 3 [5, 7]]]), .shutdown]
def q : Constraints := { fromBlock := none, toBlock := none, addrs := [], keys := [[5#256], []], pageSize := 2, offset := 0 }

theorem reached1 : ∃ s, Reached tiny ops1 s := by
  obtain ⟨s, h, -⟩ := run_inv (c := tiny) (crashOk_of_check (ops := ops1) (by decide))
  exact ⟨s, crashOk_of_check (by decide), h, by decide⟩

theorem reached2 : ∃ s, Reached tiny ops2 s := by
  obtain ⟨s, h, -⟩ := run_inv (c := tiny) (crashOk_of_check (ops := ops2) (by decide))
  exact ⟨s, crashOk_of_check (by decide), h, by decide⟩

def evs1 : List Emitted := [⟨ev 1 [5], 1, 0, 100, 0, 0⟩, ⟨ev 2 [5], 1, 0, 101, 1, 0⟩]
def evs2 : List Emitted := [⟨ev 1 [5], 1, 0, 101, 1, 1⟩, ⟨ev 3 [5, 7], 3, 2, 300, 0, 1⟩]

/-- A session of two pages, the second after more blocks: all hypotheses of the theorem hold. -/
example : ∃ s1 s2, Reached tiny ops1 s1 ∧ Reached tiny ops2 s2 ∧ (Track.run ops1).chain <+: (Track.run ops2).chain ∧
    Paged tiny 10 q none [s1, s2] (evs1 ++ evs2) ∧ answer (Track.run ops2).chain [] [[5#256], []] 0 2 = evs1 ++ evs2 := by
  obtain ⟨s1, h1⟩ := reached1
  obtain ⟨s2, h2⟩ := reached2
  have e1 : run tiny ops1 = some s1 := h1.run
  have e2 : run tiny ops2 = some s2 := h2.run
  refine ⟨s1, s2, h1, h2, by decide, ?_, by decide⟩
  have p1 : (run tiny ops1).map (fun s => pageAt tiny 10 q s none) = some (.ok ⟨evs1, some ⟨0, 2⟩⟩) := by decide +kernel
  have p2 : (run tiny ops2).map (fun s => pageAt tiny 10 q s (some ⟨0, 2⟩)) = some (.ok ⟨evs2, none⟩) := by decide +kernel
  rw [e1, Option.map_some, Option.some.injEq] at p1
  rw [e2, Option.map_some, Option.some.injEq] at p2
  exact .more p1 (.last p2)

end Example

/-! ### C24 -/

/-- Every page exists (no panic, no error), has at most `pageSize` events, and its token, if it has one, is further in the
chain than the position that was asked for. The position is any token given out before, on the same chain or a shorter one. -/
theorem C24_progress (c : Cfg) (limit : Nat) (hl : 1 ≤ limit) (q : Constraints) (hp : 1 ≤ q.pageSize)
    (hk : q.keys.length ≤ 16) (ops : List Op) (s : Sys) (hr : Reached c ops s) (tok : Option Token)
    (hv : Valid (Track.run ops).chain limit q (startOf q tok)) :
    ∃ page, pageAt c limit q s tok = .ok page ∧ page.events.length ≤ q.pageSize ∧
      ∀ t, page.token = some t → Valid (Track.run ops).chain limit q t ∧ t.block < (Track.run ops).chain.length ∧
        ((startOf q tok).block < t.block ∨ ((startOf q tok).block = t.block ∧ (startOf q tok).offset < t.offset)) := by
  obtain ⟨page, h1, h2, h3, h4⟩ := page_step hr.view limit hl q hp hk tok hv
  refine ⟨page, h1, h2, fun t ht => ?_⟩
  obtain ⟨g1, g2, g3, g4, g5, g6⟩ := h4 t ht
  have := headOf_lt g1 q.toBlock
  refine ⟨g3, by omega, ?_⟩
  by_cases hb : (startOf q tok).block = t.block
  · exact .inr ⟨hb, g6 hb⟩
  · exact .inl (by omega)

/-- Paging ends: in any sequence of states with growing chains, if the chain stops growing or the query has an end, the
tokens run out after finitely many pages. -/
theorem C24_terminates (c : Cfg) (limit : Nat) (hl : 1 ≤ limit) (q : Constraints) (hp : 1 ≤ q.pageSize)
    (hk : q.keys.length ≤ 16) (w : Nat → List Op × Sys) (hw : ∀ i, Reached c (w i).1 (w i).2)
    (hg : ∀ i, (Track.run (w i).1).chain <+: (Track.run (w (i + 1)).1).chain)
    (hend : q.toBlock ≠ none ∨ ∃ B, ∀ i, (Track.run (w i).1).chain.length ≤ B) :
    ∃ k evs, Paged c limit q none ((List.range k).map fun j => (w j).2) evs := by
  have hmono : ∀ i j, (Track.run (w i).1).chain <+: (Track.run (w (i + j)).1).chain := by
    intro i j
    induction j with
    | zero => exact List.prefix_refl _
    | succ j ih => exact ih.trans (hg (i + j))
  -- a bound on the blocks that matter
  obtain ⟨B, hB⟩ : ∃ B, ∀ i n, n ≤ headOf (Track.run (w i).1).chain q.toBlock → (Track.run (w i).1).chain ≠ [] →
      n < min (Track.run (w i).1).chain.length B := by
    rcases hend with h | ⟨B, h⟩
    · cases ht : q.toBlock with
      | none => exact absurd ht h
      | some t =>
        refine ⟨t + 1, fun i n hn hne => ?_⟩
        have := headOf_lt hne (some t)
        simp only [headOf, queryTo] at hn this
        omega
    · refine ⟨B, fun i n hn hne => ?_⟩
      have := headOf_lt hne q.toBlock
      have := h i
      omega
  obtain ⟨N, hN⟩ := exists_max (fun i => min (Track.run (w i).1).chain.length B) B (fun i => Nat.min_le_right _ _)
  have hmain := fun hF => terminates_aux hl hp hk w hw hg ((Track.run (w N).1).chain.take B) hF _ _ 0 none (by simp [Valid, startOf])
    (Nat.le_refl _) (Nat.le_refl _)
  suffices hF : _ by
    obtain ⟨k, evs, h⟩ := hmain hF
    refine ⟨k, evs, ?_⟩
    rw [List.range_eq_range']
    exact h
  intro i n hn hne
  have h1 := hB i n hn hne
  have h2 := hN i
  refine ⟨?_, by rw [List.length_take]; omega⟩
  rw [List.getElem?_take_of_lt (by omega)]
  rcases Nat.le_total i N with h | h
  · have := hmono i (N - i)
    rw [show i + (N - i) = N by omega] at this
    exact (prefix_get this (by omega)).symm
  · have := hmono N (i - N)
    rw [show N + (i - N) = i by omega] at this
    exact prefix_get this (by omega)

/-- On a chain that does not change the pages end, and they are the answer. -/
theorem C24_complete_session (c : Cfg) (limit : Nat) (hl : 1 ≤ limit) (q : Constraints) (hp : 1 ≤ q.pageSize)
    (hk : q.keys.length ≤ 16) (ops : List Op) (s : Sys) (hr : Reached c ops s) :
    ∃ k, Paged c limit q none (List.replicate k s)
      (answer (Track.run ops).chain q.addrs q.keys (q.fromBlock.getD 0) (lastOf (Track.run ops).chain q.toBlock)) := by
  obtain ⟨k, evs, h⟩ := C24_terminates c limit hl q hp hk (fun _ => (ops, s)) (fun _ => hr) (fun _ => List.prefix_refl _)
    (.inr ⟨_, fun _ => Nat.le_refl _⟩)
  have hs : ((List.range k).map fun _ => s) = List.replicate k s := by
    rw [List.map_const', List.length_range]
  simp only [hs] at h
  refine ⟨k, ?_⟩
  rw [← C23_pages_concatenate_fixed c limit hl q hp hk ops s hr k evs h]
  exact h

example : ∃ s, Reached tiny Example.ops2 s ∧ 1 ≤ Example.q.pageSize ∧ Example.q.keys.length ≤ 16 := by
  obtain ⟨s, h⟩ := Example.reached2
  exact ⟨s, h, by decide, by decide⟩

/-! ### C25 -/

/-- Without pruning every event of every page is in a block from the requested position (the first block, or the block of
the token, whatever token the caller sends) to the requested end, is in the chain, and is wanted. -/
theorem C25_pages_in_range_partial (c : Cfg) (limit : Nat) (hl : 1 ≤ limit) (q : Constraints) (hp : 1 ≤ q.pageSize)
    (hk : q.keys.length ≤ 16) (ops : List Op) (s : Sys) (hr : Reached c ops s) (tok : Option Token) (page : Page)
    (h : pageAt c limit q s tok = .ok page) (e : Emitted) (he : e ∈ page.events) :
    (startOf q tok).block ≤ e.blockNumber ∧ e.blockNumber ≤ lastOf (Track.run ops).chain q.toBlock ∧
      wanted q.addrs q.keys e.event = true ∧ ∃ b, (Track.run ops).chain[e.blockNumber]? = some b ∧ e ∈ emittedBy e.blockNumber b := by
  have v := hr.view
  obtain ⟨f, hf, hpage⟩ := pageAt_eq c limit q s tok
  rw [hpage] at h
  generalize startOf q tok = p at *
  generalize (Track.run ops).chain = chain at *
  by_cases hne : chain = []
  · unfold events at h
    rw [if_neg (by simp only; omega), v.latest, if_pos hne] at h
    simp only [Except.ok.injEq] at h
    subst h
    simp at he
  have hev := events_spec v limit hl { q with keys := trimKeys q.keys, fromBlock := f, offset := p.offset } hp
    (Nat.le_trans (trimKeys_length _) hk) hne p.block (headOf chain q.toBlock) rfl hf.symm (Nat.zero_le _)
  simp only [hitsBetween_trim, hitsIn_trim] at hev
  obtain ⟨page', h1, h2, -⟩ := hev
  rw [h, Except.ok.injEq] at h1
  subst h1
  rw [h2] at he
  have he := List.mem_of_mem_drop (List.mem_of_mem_take he)
  unfold answer at he
  obtain ⟨n, hn, hm⟩ := List.mem_flatMap.1 he
  rw [List.mem_range'_1] at hn
  unfold wantedIn at hm
  split at hm
  next b hb =>
    rw [List.mem_filter] at hm
    have hnum := (emittedBy_event hm.1).2
    subst hnum
    refine ⟨by omega, ?_, hm.2, b, hb, hm.1⟩
    have hh : headOf chain q.toBlock ≤ lastOf chain q.toBlock := by
      unfold headOf lastOf queryTo
      cases q.toBlock with
      | none => exact Nat.le_refl _
      | some t => exact Nat.min_le_left _ _
    omega
  next => simp at hm

/-- In pruning mode the first block of the query is replaced by the first block of the database: a query for the events of
block 1 returns an event of block 0. -/
theorem C25_violated : ∃ s page e, run tiny [.block (blk 1 [[ev 1 []]]), .block (blk 2 [])] = some s ∧
    (events tiny s.db s.mem true 10 ⟨some 1, some 1, [], [], 5, 0⟩).1 = .ok page ∧ e ∈ page.events ∧ e.blockNumber = 0 := by
  refine ⟨_, _, ⟨ev 1 [], 1, 0, 100, 0, 0⟩, rfl, rfl, ?_, rfl⟩
  decide

/-- A page with its token, in pruning mode. -/
def prunedPage (s : Option Sys) (q : Constraints) (tok : Option Token) : Option (Except QueryError Page) :=
  s.map fun s => match tok with
    | none => (events tiny s.db s.mem true 10 q).1
    | some t => (events tiny s.db s.mem true 10 { q with fromBlock := some t.block, offset := t.offset }).1

/-- Likewise the block of a token is ignored, so that following the tokens does not give the answer: with one event in
block 0 and two in block 1 and pages of two, the second page is the second and third event, not the third. -/
theorem C23_pruning_violated :
    let s := run tiny [.block (blk 1 [[ev 1 []]]), .block (blk 2 [[ev 2 [], ev 3 []]])]
    let q : Constraints := ⟨some 0, none, [], [], 2, 0⟩
    prunedPage s q none = some (.ok ⟨[⟨ev 1 [], 1, 0, 100, 0, 0⟩, ⟨ev 2 [], 2, 1, 200, 0, 0⟩], some ⟨1, 1⟩⟩) ∧
    prunedPage s q (some ⟨1, 1⟩) = some (.ok ⟨[⟨ev 2 [], 2, 1, 200, 0, 0⟩, ⟨ev 3 [], 2, 1, 200, 0, 1⟩], none⟩) := by
  decide

/-- A query without a first block starts at genesis, whose header is gone once it is pruned: the filter still names it and
the query panics. -/
theorem C25_pruned_panics :
    (run tiny [.block (blk 1 [[ev 1 []]]), .block (blk 2 []), .prune 1 0]).map (fun s =>
      (events tiny s.db s.mem true 10 ⟨none, none, [], [], 2, 0⟩).1) = some (.error .panic) := by
  decide

/-! ### C27 -/

/-- The blocks that the index reports for a query over a range of blocks. -/
def reported (c : Cfg) (s : Sys) (start stop : Nat) (addrs : List Felt) (keys : List (List Felt)) : List Nat :=
  (loadFilters c s.db s.mem start stop).1.flatMap fun f => aggCheck c f addrs keys

/-- Any history of blocks, reorgs, pruning, queries, cache evictions, orderly restarts and crashes runs without a panic of
the index, and afterwards the index reports every stored block with a wanted event, provided that no crash finds a saved
index of an abandoned fork that ends at the head (`CrashOk`). -/
theorem C27_index_complete_partial (c : Cfg) (ops : List Op) (hc : CrashOk ops) :
    ∃ s, run c ops = some s ∧ ∀ (start stop n : Nat) (b : Body) (addrs : List Felt) (keys : List (List Felt)) (e : Event),
      (Track.run ops).lo ≤ start → start ≤ n → n ≤ stop → stop < (Track.run ops).chain.length →
      (Track.run ops).chain[n]? = some b → keys.length ≤ 16 → e ∈ b.events → wanted addrs keys e = true →
      n ∈ reported c s start stop addrs keys := by
  obtain ⟨s, h1, h2⟩ := run_inv (c := c) hc
  refine ⟨s, h1, ?_⟩
  intro start stop n b addrs keys e g1 g2 g3 g4 g5 g6 g7 g8
  obtain ⟨hcov, hall, -, -⟩ := h2.view.filters start stop g1 g4
  obtain ⟨f, hf, hf1, hf2⟩ := hall n g2 g3
  have hto := (hcov f hf).ok.to
  have hp := len_pos c
  refine List.mem_flatMap.2 ⟨f, hf, ?_⟩
  have := check_of_bits (hcov f hf).ok addrs keys g6 (b := n - f.fromBlock) (by omega) (e := e) (by
    intro x hx r hr
    exact (hcov f hf).bits n b (by omega) hf1 hf2 (by omega) g5 r (((blockBloom_bit c _).2 r).2 ⟨e, g7, x, hx, hr⟩)) g8
  rw [show f.fromBlock + (n - f.fromBlock) = n by omega] at this
  exact this

/-- A history with a crash after blocks that were not saved, a reorg, and another crash. -/
example : CrashOk [.block (blk 1 [[ev 1 []]]), .shutdown, .block (blk 2 [[ev 2 []]]), .crash, .reorg 1, .block (blk 3 [[ev 3 []]]),
    .query false 5 ⟨none, none, [], [], 2, 0⟩, .crash] := crashOk_of_check (by decide)

/-- Without `CrashOk`: an orderly restart at block 1, a reorg that replaces block 1, a crash. The saved filter ends at the
head, so it is used, but it describes the old block 1. The event of the new block 1 is not found. -/
theorem C27_violated :
    let ops : List Op := [.block (blk 1 []), .block (blk 2 [[ev 1 []]]), .shutdown, .reorg 1, .block (blk 3 [[ev 2 []]]), .crash]
    let q : Constraints := ⟨none, none, [2#256], [], 5, 0⟩
    (run tiny ops).map (fun s => pageAt tiny 10 q s none) = some (.ok ⟨[], none⟩) ∧
    answer (Track.run ops).chain [2#256] [] 0 1 = [⟨ev 2 [], 3, 1, 300, 0, 0⟩] := by
  decide

/-- The same after a reorg of genesis: the index then claims to expect block 1, and saves that. -/
theorem C27_genesis_violated :
    let ops : List Op := [.block (blk 1 []), .reorg 0, .shutdown, .block (blk 2 [[ev 1 []]]), .crash]
    let q : Constraints := ⟨none, none, [1#256], [], 5, 0⟩
    (run tiny ops).map (fun s => pageAt tiny 10 q s none) = some (.ok ⟨[], none⟩) ∧
    answer (Track.run ops).chain [1#256] [] 0 0 = [⟨ev 1 [], 2, 0, 200, 0, 0⟩] := by
  decide

/-! ### C48 -/

/-- A query that reads the database as it was before a block is stored, and the memory after (the running filter is changed
before the transaction commits). -/
def midway (s s' : Sys) : Sys := { db := s.db, mem := s'.mem }

/-- If the block does not end a range, the query is not affected: the pages are those of the chain without the block. -/
theorem C48_query_during_insertion_partial (c : Cfg) (limit : Nat) (hl : 1 ≤ limit) (q : Constraints) (hp : 1 ≤ q.pageSize)
    (hk : q.keys.length ≤ 16) (ops : List Op) (s s' : Sys) (hr : Reached c ops s) (b : Body) (hs : storeBlock c s b = some s')
    (hend : ((Track.run ops).chain.length + 1) % c.len ≠ 0) (tok : Option Token)
    (hv : Valid (Track.run ops).chain limit q (startOf q tok)) :
    ∃ page, pageAt c limit q (midway s s') tok = .ok page ∧
      (answer (Track.run ops).chain q.addrs q.keys (startOf q tok).block (lastOf (Track.run ops).chain q.toBlock)).drop (startOf q tok).offset =
        page.events ++ match page.token with
          | none => []
          | some t => (answer (Track.run ops).chain q.addrs q.keys t.block (lastOf (Track.run ops).chain q.toBlock)).drop t.offset := by
  obtain ⟨s0, h1, h2⟩ := run_inv (c := c) hr.crashOk
  rw [hr.run, Option.some.injEq] at h1
  subst h1
  have hview : View c (midway s s').db (midway s s').mem (Track.run ops).chain 0 := by
    have hrun : RunInv c s'.mem.running (Track.run ops).chain (Track.run ops).lo ∧ s'.mem.cache = s.mem.cache := by
      unfold storeBlock at hs
      simp only at hs
      split at hs
      · simp only [Option.some.injEq] at hs
        subst hs
        exact ⟨h2.run, rfl⟩
      · rw [nextNumber_eq h2.db, upsertFilters, Option.map_map, Option.map_eq_some_iff] at hs
        obtain ⟨a', ha, hs⟩ := hs
        obtain ⟨g1, g2, g3⟩ := h2.run.1.insert b ha
        have hto := h2.run.1.ok.to
        have hne : (Track.run ops).chain.length ≠ a'.toBlock := by
          intro e
          apply hend
          have hp := len_pos c
          rw [show (Track.run ops).chain.length + 1 = s.mem.running.fromBlock + c.len by omega, h2.run.2,
            Nat.add_mod_right, Nat.mul_mod_left]
        simp only [Function.comp_apply, if_neg hne] at hs
        subst hs
        refine ⟨⟨g1.mono ?_, by simp only; rw [g2]; exact h2.run.2⟩, rfl⟩
        intro n k1 k2 k3 k4
        exact ⟨k1, by omega, (List.getElem?_append_left k4).symm⟩
    have hinv : Inv c { db := s.db, mem := { s'.mem with next := s.mem.next } } (Track.run ops) :=
      ⟨h2.db, hrun.1, h2.next, by simp only; rw [hrun.2]; exact h2.cache, h2.saved⟩
    have := hinv.view
    rw [hr.archive] at this
    exact ⟨this.lo_ok, this.header, this.events, this.latest, this.filters⟩
  obtain ⟨page, h1, -, h3, h4⟩ := page_step hview limit hl q hp hk tok hv
  refine ⟨page, h1, ?_⟩
  rw [← headOf_answer]
  cases ht : page.token with
  | none => rw [List.append_nil]; exact h3 ht
  | some t => simp only; rw [← headOf_answer]; exact (h4 t ht).2.1

/-- If it does, a query over the end of the chain finds nothing: the running filter already stands for the next range,
and the filter of the finished range is not yet in the reader's view of the database. -/
theorem C48_violated :
    let ops : List Op := (List.range 7).map fun i => .block (blk (i + 1) [[ev (i + 1) []]])
    let q : Constraints := ⟨none, none, [7#256], [], 5, 0⟩
    ((run tiny ops).bind fun s => (storeBlock tiny s (blk 8 [])).map fun s' => pageAt tiny 10 q (midway s s') none) =
      some (.ok ⟨[], none⟩) ∧
    answer (Track.run ops).chain [7#256] [] 0 6 = [⟨ev 7 [], 7, 6, 700, 0, 0⟩] := by
  decide

/-- The hypotheses of the partial theorem are met in the middle of a range. -/
example : ∃ s s', Reached tiny Example.ops2 s ∧ storeBlock tiny s (blk 9 [[ev 9 []]]) = some s' ∧
    ((Track.run Example.ops2).chain.length + 1) % tiny.len ≠ 0 := by
  obtain ⟨s, h⟩ := Example.reached2
  obtain ⟨s0, h1, h2⟩ := run_inv (c := tiny) h.crashOk
  rw [h.run, Option.some.injEq] at h1
  subst h1
  obtain ⟨s', hs, -⟩ := step_block h2 (blk 9 [[ev 9 []]])
  exact ⟨s, s', h, hs, by decide⟩

end Verif.Events
