import Verif.Events.BloomLemmas
import Verif.Events.Spec
/-
One page of an event query.
-/
namespace Verif.Events

/-! ### list lemmas -/

theorem skipWhile_eq {α : Type} (off : Nat) (xs : List α) : skipWhile off xs = (xs.drop off, off - xs.length) := by
  induction xs generalizing off with
  | nil => simp [skipWhile]
  | cons x xs ih =>
    unfold skipWhile
    by_cases h : off > 0
    · rw [if_pos h, ih]
      obtain ⟨k, rfl⟩ : ∃ k, off = k + 1 := ⟨off - 1, by omega⟩
      simp only [List.drop_succ_cons, List.length_cons, Nat.add_sub_cancel, Prod.mk.injEq, true_and]
      omega
    · rw [if_neg h]
      have : off = 0 := by omega
      subst this
      simp

/-- Scanning a sorted selection of blocks that contains every block with hits is scanning them all. -/
theorem flatMap_select {α : Type} (hits : Nat → List α) (k a : Nat) (bs : List Nat) (hs : bs.Pairwise (· < ·))
    (hm : ∀ b ∈ bs, a ≤ b ∧ b < a + k) (hn : ∀ n, a ≤ n → n < a + k → n ∉ bs → hits n = []) :
    bs.flatMap hits = (List.range' a k).flatMap hits := by
  induction k generalizing a bs with
  | zero =>
    cases bs with
    | nil => simp
    | cons b bs => have := hm b (by simp); omega
  | succ k ih =>
    rw [List.range'_succ, List.flatMap_cons]
    cases bs with
    | nil =>
      have h0 := hn a (by omega) (by omega) (by simp)
      rw [h0, List.nil_append]
      exact ih (a + 1) [] List.Pairwise.nil (by simp) fun n h1 h2 h3 => hn n (by omega) (by omega) h3
    | cons b bs =>
      have hb := hm b (by simp)
      rw [List.pairwise_cons] at hs
      by_cases hba : b = a
      · subst hba
        rw [List.flatMap_cons]
        congr 1
        refine ih (b + 1) bs hs.2 (fun x hx => ?_) fun n h1 h2 h3 => hn n (by omega) (by omega) ?_
        · have := hs.1 x hx; have := hm x (by simp [hx]); omega
        · simp only [List.mem_cons, not_or]; exact ⟨by omega, h3⟩
      · have h0 := hn a (by omega) (by omega) (by
          simp only [List.mem_cons, not_or]
          refine ⟨fun e => hba e.symm, fun hx => ?_⟩
          have := hs.1 a hx; omega)
        rw [h0, List.nil_append]
        refine ih (a + 1) (b :: bs) (List.pairwise_cons.2 hs) (fun x hx => ?_) fun n h1 h2 h3 => hn n (by omega) (by omega) h3
        have := hm x hx
        rcases List.mem_cons.1 hx with h | h
        · omega
        · have := hs.1 x h; omega

/-! ### matching -/

theorem keysMatch_flat {keys : List (List Felt)} (h : keys.flatten.length = 0) : ∀ g ∈ keys, g = [] := by
  intro g hg
  rw [List.length_eq_zero_iff, List.flatten_eq_nil_iff] at h
  exact h g hg

/-- The filter used by the code is the specification, if the last list of keys is not empty (which the callers ensure). -/
theorem matches_eq (addrs : List Felt) (keys : List (List Felt)) (e : Event)
    (ht : (∀ g ∈ keys, g = []) ∨ ∃ ks g, keys = ks ++ [g] ∧ g ≠ []) :
    (addrMatches addrs e && keysMatch keys e) = wanted addrs keys e := by
  unfold wanted
  congr 1
  · unfold addrMatches
    cases addrs <;> simp
  · rw [Bool.eq_iff_iff, List.all_eq_true]
    unfold keysMatch
    split
    next h =>
      simp only [true_iff]
      intro gi hgi
      have := keysMatch_flat h gi.1 (by
        have := List.mem_zipIdx_iff_getElem?.1 hgi
        exact List.mem_of_getElem? this)
      simp [this]
    next h =>
      have hne : ¬ ∀ g ∈ keys, g = [] := by
        intro hall
        apply h
        rw [List.length_eq_zero_iff, List.flatten_eq_nil_iff]
        exact hall
      obtain ⟨ks, g, hk, hg⟩ := ht.resolve_left hne
      split
      next hl =>
        simp only [Bool.false_eq_true, false_iff]
        intro hall
        have := hall (g, ks.length) (by
          rw [List.mem_zipIdx_iff_getElem?]
          simp [hk])
        simp only [Bool.or_eq_true, List.isEmpty_iff, hg, false_or] at this
        rw [List.getElem?_eq_none (by rw [hk] at hl; simp at hl; omega)] at this
        simp at this
      next hl =>
        rw [List.all_eq_true]
        constructor
        · intro hall gi hgi
          have hi := List.mem_zipIdx_iff_getElem?.1 hgi
          have hlt := (List.getElem?_eq_some_iff.1 hi).1
          have hke : gi.2 < e.keys.length := by omega
          have := hall (e.keys[gi.2], gi.1) (by
            rw [List.mem_iff_getElem?]
            refine ⟨gi.2, ?_⟩
            rw [List.getElem?_zip_eq_some]
            exact ⟨List.getElem?_eq_getElem hke, hi⟩)
          rw [List.getElem?_eq_getElem hke]
          exact this
        · intro hall kg hkg
          obtain ⟨i, hi⟩ := List.mem_iff_getElem?.1 hkg
          rw [List.getElem?_zip_eq_some] at hi
          have := hall (kg.2, i) (by rw [List.mem_zipIdx_iff_getElem?]; exact hi.2)
          simp only [hi.1] at this
          exact this

/-! ### no false negatives -/

/-- A filter knows every event of the blocks below `upto` that are not pruned. -/
structure Covers (c : Cfg) (a : Agg) (chain : List Body) (lo upto : Nat) : Prop where
  ok : a.Ok c
  bits : ∀ n b, lo ≤ n → a.fromBlock ≤ n → n ≤ a.toBlock → n < upto → chain[n]? = some b →
    ∀ r, getBit (blockBloom c (b.txs.flatMap (·.2))) r = true → aggBit c a r (n - a.fromBlock) = true

/-- The filter used by the code implies the specification, whatever the lists of keys are. -/
theorem wanted_of_matches {addrs : List Felt} {keys : List (List Felt)} {e : Event}
    (h : (addrMatches addrs e && keysMatch keys e) = true) : wanted addrs keys e = true := by
  rw [Bool.and_eq_true] at h
  unfold wanted
  rw [Bool.and_eq_true]
  refine ⟨?_, ?_⟩
  · have := h.1
    unfold addrMatches at this
    cases addrs with
    | nil => rfl
    | cons x xs => simpa using this
  · have hkm := h.2
    rw [List.all_eq_true]
    intro gi hgi
    have hi := List.mem_zipIdx_iff_getElem?.1 hgi
    unfold keysMatch at hkm
    split at hkm
    next hf => simp [keysMatch_flat hf gi.1 (List.mem_of_getElem? hi)]
    next =>
      split at hkm
      next => simp at hkm
      next hl =>
        have hlt := (List.getElem?_eq_some_iff.1 hi).1
        have hke : gi.2 < e.keys.length := by omega
        rw [List.all_eq_true] at hkm
        have := hkm (e.keys[gi.2], gi.1) (by
          rw [List.mem_iff_getElem?]
          refine ⟨gi.2, ?_⟩
          rw [List.getElem?_zip_eq_some]
          exact ⟨List.getElem?_eq_getElem hke, hi⟩)
        rw [List.getElem?_eq_getElem hke]
        exact this

/-- A filter that has the bits of an event in column `b` reports that block for every query that wants the event. -/
theorem check_of_bits {c : Cfg} {a : Agg} (ok : a.Ok c) (addrs : List Felt) (keys : List (List Felt)) (hk : keys.length ≤ keyLimit)
    {b : Nat} (hb : b < c.len) {e : Event} (bit : ∀ x ∈ e.items, ∀ r ∈ indicesForKey c x, aggBit c a r b = true)
    (hm : wanted addrs keys e = true) : a.fromBlock + b ∈ aggCheck c a addrs keys := by
  rw [mem_aggCheck ok]
  unfold wanted at hm
  rw [Bool.and_eq_true] at hm
  refine ⟨b, hb, rfl, ?_, ?_⟩
  · rcases Bool.or_eq_true _ _ ▸ hm.1 with h | h
    · exact .inl (List.isEmpty_iff.1 h)
    · exact .inr ⟨e.addr, List.contains_iff_mem.1 h, bit _ (by simp [Event.items])⟩
  · by_cases hnil : [] ∈ keys
    · exact .inl hnil
    right
    intro i g hg
    have hi := (List.getElem?_eq_some_iff.1 hg).1
    have hkm := hm.2
    rw [List.all_eq_true] at hkm
    have := hkm (g, i) (by rw [List.mem_zipIdx_iff_getElem?]; exact hg)
    have hgne : g ≠ [] := fun e => hnil (e ▸ List.mem_of_getElem? hg)
    simp only [Bool.or_eq_true, List.isEmpty_iff, hgne, false_or] at this
    split at this
    next k hki =>
      refine ⟨k, List.contains_iff_mem.1 this, bit _ ?_⟩
      unfold Event.items
      refine List.mem_cons_of_mem _ (List.mem_map.2 ⟨(k, i), ?_, rfl⟩)
      rw [List.mem_zipIdx_iff_getElem?]
      simp only
      rw [List.getElem?_take_of_lt (by omega)]
      exact hki
    next => simp at this

theorem check_complete {c : Cfg} {a : Agg} {chain : List Body} {lo upto : Nat} (h : Covers c a chain lo upto)
    (addrs : List Felt) (keys : List (List Felt)) (hk : keys.length ≤ keyLimit)
    {n : Nat} {b : Body} (h1 : lo ≤ n) (h2 : a.fromBlock ≤ n) (h3 : n ≤ a.toBlock) (h4 : n < upto) (hb : chain[n]? = some b)
    {e : Event} (he : e ∈ b.txs.flatMap (·.2)) (hm : (addrMatches addrs e && keysMatch keys e) = true) :
    n ∈ aggCheck c a addrs keys := by
  have hlen : 0 < c.len := by have := c.rangePos; unfold Cfg.len; omega
  have hto := h.ok.to
  have bit : ∀ x ∈ e.items, ∀ r ∈ indicesForKey c x, aggBit c a r (n - a.fromBlock) = true := by
    intro x hx r hr
    exact h.bits n b h1 h2 h3 h4 hb r (((blockBloom_bit c _).2 r).2 ⟨e, he, x, hx, hr⟩)
  have := check_of_bits h.ok addrs keys hk (b := n - a.fromBlock) (by omega) bit (wanted_of_matches hm)
  rw [show a.fromBlock + (n - a.fromBlock) = n by omega] at this
  exact this

/-! ### the scan -/

/-- What the queries see of the database: the blocks from `lo` on of `chain`, and filters that cover them. -/
structure View (c : Cfg) (db : Db) (mem : Mem) (chain : List Body) (lo : Nat) : Prop where
  lo_ok : lo < chain.length ∨ (lo = 0 ∧ chain = [])
  header : ∀ n b, lo ≤ n → chain[n]? = some b → headerHash db n = some b.hash
  events : ∀ n b, lo ≤ n → chain[n]? = some b → eventsForBlock db n = b.txs
  latest : latestBlock db = if chain = [] then none else some (chain.length - 1)
  filters : ∀ start stop, lo ≤ start → stop < chain.length →
    (∀ f ∈ (loadFilters c db mem start stop).1, Covers c f chain lo chain.length) ∧
    (∀ n, start ≤ n → n ≤ stop → ∃ f ∈ (loadFilters c db mem start stop).1, f.fromBlock ≤ n ∧ n ≤ f.toBlock) ∧
    (loadFilters c db mem start stop).1.Pairwise (fun f g => f.toBlock < g.fromBlock) ∧
    ∃ last, (loadFilters c db mem start stop).1.getLast? = some last ∧ stop ≤ last.toBlock

/-- The events the code selects in block `n`. -/
def hitsIn (chain : List Body) (addrs : List Felt) (keys : List (List Felt)) (n : Nat) : List Emitted :=
  match chain[n]? with
  | some b => (emittedBy n b).filter fun e => addrMatches addrs e.event && keysMatch keys e.event
  | none => []

theorem emittedBy_event {n : Nat} {b : Body} {e : Emitted} (h : e ∈ emittedBy n b) :
    e.event ∈ b.txs.flatMap (·.2) ∧ e.blockNumber = n := by
  unfold emittedBy at h
  obtain ⟨ti, h1, h2⟩ := List.mem_flatMap.1 h
  obtain ⟨ei, h3, rfl⟩ := List.mem_map.1 h2
  have h4 := List.mem_zipIdx_iff_getElem?.1 h1
  have h5 := List.mem_zipIdx_iff_getElem?.1 h3
  exact ⟨List.mem_flatMap.2 ⟨ti.1, List.mem_of_getElem? h4, List.mem_of_getElem? h5⟩, rfl⟩

theorem hitsIn_number {chain : List Body} {addrs : List Felt} {keys : List (List Felt)} {n : Nat} {e : Emitted}
    (h : e ∈ hitsIn chain addrs keys n) : e.blockNumber = n := by
  unfold hitsIn at h
  split at h
  · exact (emittedBy_event (List.mem_filter.1 h).1).2
  · simp at h

theorem scan_spec {db : Db} {chain : List Body} {lo : Nat} (addrs : List Felt) (keys : List (List Felt)) (p : Nat)
    (hh : ∀ n b, lo ≤ n → chain[n]? = some b → headerHash db n = some b.hash)
    (he : ∀ n b, lo ≤ n → chain[n]? = some b → eventsForBlock db n = b.txs)
    (bs : List Nat) (hb : ∀ n ∈ bs, lo ≤ n ∧ n < chain.length) (off : Nat) (acc : List Emitted) (ha : acc.length ≤ p) :
    scan db addrs keys p bs off acc = some (
      let all := acc ++ (bs.flatMap (hitsIn chain addrs keys)).drop off
      if all.length > p then .full (all.take (p + 1)) else .done all) := by
  induction bs generalizing off acc with
  | nil =>
    simp only [scan, List.flatMap_nil, List.drop_nil, List.append_nil]
    rw [if_neg (by omega)]
  | cons b bs ih =>
    obtain ⟨hlo, hlt⟩ := hb b (by simp)
    have hc := List.getElem?_eq_getElem hlt
    unfold scan
    rw [hh b _ hlo hc]
    simp only
    have hits : (emitBlock b chain[b].hash (eventsForBlock db b)).filter (fun e => addrMatches addrs e.event && keysMatch keys e.event) =
        hitsIn chain addrs keys b := by
      unfold hitsIn
      rw [hc, he b _ hlo hc]
      rfl
    rw [hits, skipWhile_eq]
    simp only [List.flatMap_cons]
    rw [List.drop_append]
    generalize hitsIn chain addrs keys b = H
    by_cases hfull : (acc ++ (H.drop off).take (p + 1 - acc.length)).length > p
    · rw [if_pos hfull]
      have h1 : p + 1 - acc.length ≤ (H.drop off).length := by
        simp only [List.length_append, List.length_take] at hfull
        omega
      have h2 : (acc ++ (List.drop off H ++ List.drop (off - H.length) (bs.flatMap (hitsIn chain addrs keys)))).length > p := by
        simp only [List.length_append]; omega
      rw [if_pos h2, List.take_append, List.take_of_length_le (show acc.length ≤ p + 1 by omega), List.take_append_of_le_length h1]
    · rw [if_neg hfull]
      have h1 : (H.drop off).take (p + 1 - acc.length) = H.drop off := by
        apply List.take_of_length_le
        simp only [List.length_append, List.length_take] at hfull
        omega
      rw [h1] at hfull ⊢
      rw [ih (fun n hn => hb n (by simp [hn])) _ _ (by omega)]
      simp only [List.append_assoc]

/-! ### the page -/

/-- Everything the code selects in the blocks `first`, ..., `last`. -/
def hitsBetween (chain : List Body) (addrs : List Felt) (keys : List (List Felt)) (first last : Nat) : List Emitted :=
  (List.range' first (last + 1 - first)).flatMap (hitsIn chain addrs keys)

theorem hitsBetween_split (chain : List Body) (addrs : List Felt) (keys : List (List Felt)) {a m b : Nat} (h1 : a ≤ m) (h2 : m ≤ b + 1) :
    hitsBetween chain addrs keys a b = (List.range' a (m - a)).flatMap (hitsIn chain addrs keys) ++ hitsBetween chain addrs keys m b := by
  unfold hitsBetween
  rw [← List.flatMap_append]
  congr 1
  rw [show b + 1 - a = (m - a) + (b + 1 - m) by omega, ← List.range'_append_1]
  congr 2
  omega

theorem mem_hitsBetween {chain : List Body} {addrs : List Felt} {keys : List (List Felt)} {a b : Nat} {e : Emitted}
    (h : e ∈ hitsBetween chain addrs keys a b) : a ≤ e.blockNumber ∧ e.blockNumber ≤ b := by
  unfold hitsBetween at h
  obtain ⟨n, hn, he⟩ := List.mem_flatMap.1 h
  have := hitsIn_number he
  rw [List.mem_range'_1] at hn
  omega

theorem hits_sorted (chain : List Body) (addrs : List Felt) (keys : List (List Felt)) (k a : Nat) :
    ((List.range' a k).flatMap (hitsIn chain addrs keys)).Pairwise (fun x y => x.blockNumber ≤ y.blockNumber) := by
  induction k generalizing a with
  | zero => simp
  | succ k ih =>
    rw [List.range'_succ, List.flatMap_cons, List.pairwise_append]
    refine ⟨?_, ih (a + 1), ?_⟩
    · rw [List.pairwise_iff_forall_sublist]
      intro x y hxy
      have hx : x ∈ hitsIn chain addrs keys a := hxy.subset (by simp)
      have hy : y ∈ hitsIn chain addrs keys a := hxy.subset (by simp)
      rw [hitsIn_number hx, hitsIn_number hy]; exact Nat.le_refl _
    · intro x hx y hy
      obtain ⟨n, hn, he⟩ := List.mem_flatMap.1 hy
      rw [List.mem_range'_1] at hn
      rw [hitsIn_number hx, hitsIn_number he]; omega

/-- The trailing events with number `n` of `xs ++ ys`, when `ys` has only such events and `xs` has none. -/
theorem trailing_append {xs ys : List Emitted} {n : Nat} (hy : ∀ e ∈ ys, e.blockNumber = n) (hx : ∀ e ∈ xs, e.blockNumber ≠ n) :
    trailing (xs ++ ys) n = ys.length := by
  unfold trailing
  rw [List.reverse_append, List.takeWhile_append_of_pos (by
    intro e he
    simp [hy e (List.mem_reverse.1 he)])]
  have : (xs.reverse.takeWhile fun e => e.blockNumber == n) = [] := by
    cases hr : xs.reverse with
    | nil => rfl
    | cons x r =>
      have : x ∈ xs := List.mem_reverse.1 (hr ▸ List.mem_cons_self ..)
      rw [List.takeWhile_cons_of_neg (by simpa using hx x this)]
  rw [this]
  simp

/-- The token of a full page points just behind the page. -/
theorem token_spec (chain : List Body) (addrs : List Felt) (keys : List (List Felt)) (a b off p : Nat)
    (hl : p < ((hitsBetween chain addrs keys a b).drop off).length) :
    ∃ t, continuationToken (((hitsBetween chain addrs keys a b).drop off).take (p + 1)) ⟨a, off⟩ = some t ∧
      1 ≤ t.offset ∧ a ≤ t.block ∧ t.block ≤ b ∧
      (hitsBetween chain addrs keys t.block b).drop (t.offset - 1) = ((hitsBetween chain addrs keys a b).drop off).drop p ∧
      t.offset ≤ (hitsBetween chain addrs keys t.block b).length ∧
      ((t.block = a ∧ t.offset = off + p + 1) ∨ (a < t.block ∧ t.offset ≤ (hitsIn chain addrs keys t.block).length)) := by
  generalize hE : ((hitsBetween chain addrs keys a b).drop off).take (p + 1) = E
  have hElen : E.length = p + 1 := by rw [← hE, List.length_take]; omega
  unfold continuationToken
  cases hlast : E.getLast? with
  | none => rw [List.getLast?_eq_none_iff] at hlast; subst hlast; simp at hElen
  | some last =>
    simp only
    have hsub : ∀ e ∈ E, e ∈ hitsBetween chain addrs keys a b := fun e he =>
      List.mem_of_mem_drop (List.mem_of_mem_take (hE ▸ he))
    have hlm : last ∈ E := List.mem_of_getLast? hlast
    have hnum := mem_hitsBetween (hsub last hlm)
    have hab : a ≤ b := by omega
    have hlen0 := hl
    rw [List.length_drop] at hlen0
    split
    next htr =>
      -- the page reaches into the block of its last event
      generalize hm : last.blockNumber = m at *
      refine ⟨_, rfl, ?_⟩
      simp only
      have hsplit := hitsBetween_split chain addrs keys (a := a) (m := m) (b := b) hnum.1 (by omega)
      have hsplit2 := hitsBetween_split chain addrs keys (a := m) (m := m + 1) (b := b) (by omega) (by omega)
      rw [show m + 1 - m = 1 by omega] at hsplit2
      simp only [List.range'_one, List.flatMap_cons, List.flatMap_nil, List.append_nil] at hsplit2
      generalize hX : (List.range' a (m - a)).flatMap (hitsIn chain addrs keys) = X at hsplit
      generalize hH : hitsIn chain addrs keys m = H at hsplit2
      generalize hZ : hitsBetween chain addrs keys (m + 1) b = Z at hsplit2
      have hXn : ∀ e ∈ X, e.blockNumber < m := by
        intro e he
        rw [← hX] at he
        obtain ⟨n, hn, he⟩ := List.mem_flatMap.1 he
        rw [List.mem_range'_1] at hn
        rw [hitsIn_number he]; omega
      have hHn : ∀ e ∈ H, e.blockNumber = m := by intro e he; rw [← hH] at he; exact hitsIn_number he
      have hZn : ∀ e ∈ Z, m < e.blockNumber := by
        intro e he; rw [← hZ] at he; have := mem_hitsBetween he; omega
      rw [hsplit2] at hsplit
      -- sortedness: nothing of `Z` is in the page
      have hsorted : (X ++ (H ++ Z)).Pairwise (fun x y => x.blockNumber ≤ y.blockNumber) := by
        rw [← hsplit]; exact hits_sorted ..
      have hEeq : E = ((X ++ (H ++ Z)).drop off).take (p + 1) := by rw [← hE, hsplit]
      have hEs : E.Pairwise (fun x y => x.blockNumber ≤ y.blockNumber) := by
        rw [hEeq]; exact (hsorted.drop).take
      have hEle : ∀ e ∈ E, e.blockNumber ≤ m := by
        intro e he
        obtain ⟨E', rfl⟩ : ∃ E', E = E' ++ [last] := by
          have hne : E ≠ [] := by intro h; subst h; simp at hElen
          exact ⟨E.dropLast, by
            have := List.dropLast_concat_getLast hne
            rw [List.getLast?_eq_some_getLast hne] at hlast
            simp only [Option.some.injEq] at hlast
            rw [hlast] at this; exact this.symm⟩
        rw [List.pairwise_append] at hEs
        rcases List.mem_append.1 he with h | h
        · have := hEs.2.2 e h last (by simp); omega
        · simp only [List.mem_singleton] at h; subst h; omega
      have hlenE : p + 1 ≤ (X ++ (H ++ Z)).length - off := by
        rw [hsplit] at hlen0; omega
      -- the page ends inside `H`
      have hend : off + p < X.length + H.length := by
        apply Classical.byContradiction
        intro hno
        -- the last element comes from Z
        have hg : E[p]? = some last := by
          rw [List.getLast?_eq_getElem?, hElen] at hlast
          simpa using hlast
        rw [hEeq, List.getElem?_take_of_lt (by omega), List.getElem?_drop, List.getElem?_append_right (by omega),
          List.getElem?_append_right (by omega)] at hg
        have := hZn last (List.mem_of_getElem? hg)
        omega
      have hstart : X.length ≤ off + p := by
        apply Classical.byContradiction
        intro hno
        have hg : E[p]? = some last := by
          rw [List.getLast?_eq_getElem?, hElen] at hlast
          simpa using hlast
        rw [hEeq, List.getElem?_take_of_lt (by omega), List.getElem?_drop, List.getElem?_append_left (by omega)] at hg
        have := hXn last (List.mem_of_getElem? hg)
        omega
      -- the page as two parts
      have hparts : E = X.drop off ++ (H.drop (off - X.length)).take (p + 1 - (X.length - off)) := by
        rw [hEeq, List.drop_append, List.take_append, List.take_of_length_le (show (X.drop off).length ≤ p + 1 by rw [List.length_drop]; omega),
          List.length_drop, List.drop_append, List.take_append_of_le_length (by rw [List.length_drop]; omega)]
      have htrail : trailing E m = ((H.drop (off - X.length)).take (p + 1 - (X.length - off))).length := by
        rw [hparts]
        apply trailing_append
        · intro e he; exact hHn e (List.mem_of_mem_drop (List.mem_of_mem_take he))
        · intro e he; have := hXn e (List.mem_of_mem_drop he); omega
      rw [List.length_take, List.length_drop] at htrail
      rw [htrail] at htr ⊢
      have hoff : off < X.length := by
        apply Classical.byContradiction
        intro hno
        rw [hElen] at htr
        omega
      have hc : min (p + 1 - (X.length - off)) (H.length - (off - X.length)) = p + 1 - (X.length - off) := by omega
      rw [hc]
      refine ⟨by omega, by omega, by omega, ?_, ?_, ?_⟩
      · rw [hsplit2, hsplit, List.drop_drop, List.drop_append (l₁ := X), List.drop_of_length_le (show X.length ≤ off + p by omega), List.nil_append]
        congr 1
        omega
      · rw [hsplit2, List.length_append]; omega
      · have : a ≠ m := by
          intro e; subst e
          rw [Nat.sub_self] at hX
          simp at hX
          subst hX
          simp at hoff
        exact .inr ⟨by omega, by omega⟩
    next =>
      refine ⟨_, rfl, by simp only; omega, Nat.le_refl _, hab, ?_, ?_, .inl ⟨rfl, ?_⟩⟩
      · simp only
        rw [List.drop_drop, hElen]
        congr 1
      · simp only; rw [hElen]; omega
      · simp only; rw [hElen]; omega

/-! ### the whole query -/

theorem len_pos (c : Cfg) : 0 < c.len := by have := c.rangePos; unfold Cfg.len; omega

theorem aggCheck_range {c : Cfg} {a : Agg} (ok : a.Ok c) {addrs : List Felt} {keys : List (List Felt)} {n : Nat}
    (h : n ∈ aggCheck c a addrs keys) : a.fromBlock ≤ n ∧ n ≤ a.toBlock := by
  obtain ⟨b, hb, hn, -⟩ := (mem_aggCheck ok addrs keys n).1 h
  have := ok.to
  omega

theorem checks_sorted {c : Cfg} {fs : List Agg} (hok : ∀ f ∈ fs, f.Ok c) (addrs : List Felt) (keys : List (List Felt))
    (hs : fs.Pairwise (fun f g => f.toBlock < g.fromBlock)) :
    (fs.flatMap fun f => aggCheck c f addrs keys).Pairwise (· < ·) := by
  induction fs with
  | nil => simp
  | cons f fs ih =>
    rw [List.pairwise_cons] at hs
    rw [List.flatMap_cons, List.pairwise_append]
    refine ⟨aggCheck_sorted c f addrs keys, ih (fun g hg => hok g (by simp [hg])) hs.2, ?_⟩
    intro x hx y hy
    obtain ⟨g, hg, hy⟩ := List.mem_flatMap.1 hy
    have h1 := aggCheck_range (hok f (by simp)) hx
    have h2 := aggCheck_range (hok g (by simp [hg])) hy
    have := hs.1 g hg
    omega

/-- Scanning the blocks selected by the filters finds everything. -/
theorem blocks_complete {c : Cfg} {db : Db} {mem : Mem} {chain : List Body} {lo : Nat} (v : View c db mem chain lo)
    (addrs : List Felt) (keys : List (List Felt)) (hk : keys.length ≤ keyLimit) {a b : Nat} (hlo : lo ≤ a) (hb : b < chain.length) :
    (blocksToScan c (loadFilters c db mem a b).1 addrs keys a b).flatMap (hitsIn chain addrs keys) = hitsBetween chain addrs keys a b ∧
    ∀ n ∈ blocksToScan c (loadFilters c db mem a b).1 addrs keys a b, lo ≤ n ∧ n < chain.length := by
  obtain ⟨hcov, hall, hsort, -⟩ := v.filters a b hlo hb
  have hmem : ∀ n, n ∈ blocksToScan c (loadFilters c db mem a b).1 addrs keys a b ↔
      (∃ f ∈ (loadFilters c db mem a b).1, n ∈ aggCheck c f addrs keys) ∧ a ≤ n ∧ n ≤ b := by
    intro n
    unfold blocksToScan
    rw [List.mem_filter, List.mem_flatMap]
    simp
  refine ⟨?_, fun n hn => ?_⟩
  · unfold hitsBetween
    apply flatMap_select
    · exact (checks_sorted (fun f hf => (hcov f hf).ok) addrs keys hsort).filter _
    · intro n hn
      have := ((hmem n).1 hn).2
      omega
    · intro n h1 h2 hn
      apply Classical.byContradiction
      intro hne
      obtain ⟨e, he⟩ := List.exists_mem_of_ne_nil _ hne
      have hlt : n < chain.length := by omega
      have hc := List.getElem?_eq_getElem hlt
      unfold hitsIn at he
      rw [hc] at he
      simp only [List.mem_filter] at he
      obtain ⟨f, hf, hf1, hf2⟩ := hall n (by omega) (by omega)
      apply hn
      rw [hmem]
      exact ⟨⟨f, hf, check_complete (hcov f hf) addrs keys hk (by omega) hf1 hf2 hlt hc (emittedBy_event he.1).1 he.2⟩, by omega, by omega⟩
  · have := ((hmem n).1 hn).2
    omega

/-- What one call returns. `to` is the last block asked for. -/
theorem events_spec {c : Cfg} {db : Db} {mem : Mem} {chain : List Body} {lo : Nat} (v : View c db mem chain lo)
    (limit : Nat) (hl : 1 ≤ limit) (q : Constraints) (hp : 1 ≤ q.pageSize) (hk : q.keys.length ≤ keyLimit) (hne : chain ≠ [])
    (a to : Nat) (hto : to = queryTo (chain.length - 1) q.toBlock) (hfrom : a = q.fromBlock.getD 0) (hlo : lo ≤ a) :
    let H := hitsBetween chain q.addrs q.keys
    let lim := min to (a + limit - 1)
    ∃ page, (events c db mem false limit q).1 = .ok page ∧
      page.events = ((H a lim).drop q.offset).take q.pageSize ∧
      (((H a lim).drop q.offset).length ≤ q.pageSize → page.token = if lim < to then some ⟨lim + 1, 0⟩ else none) ∧
      (q.pageSize < ((H a lim).drop q.offset).length →
        ∃ t, page.token = some t ∧ a ≤ t.block ∧ t.block ≤ lim ∧
          (H t.block lim).drop t.offset = ((H a lim).drop q.offset).drop q.pageSize ∧ t.offset < (H t.block lim).length ∧
          ((t.block = a ∧ t.offset = q.offset + q.pageSize) ∨ (a < t.block ∧ t.offset < (hitsIn chain q.addrs q.keys t.block).length))) := by
  intro H lim
  have hcpos : 0 < chain.length := List.length_pos_iff.2 hne
  have hlim : lim < chain.length := by
    have : to ≤ chain.length - 1 := by rw [hto]; unfold queryTo; split <;> omega
    omega
  obtain ⟨hbs, hbm⟩ := blocks_complete v q.addrs q.keys hk hlo hlim
  obtain ⟨-, -, -, last, hlast, hle⟩ := v.filters a lim hlo hlim
  unfold events
  rw [if_neg (by omega), v.latest, if_neg hne]
  simp only
  have hqf : queryFrom db false (chain.length - 1) q.fromBlock = a := by
    rw [hfrom]; cases q.fromBlock <;> simp [queryFrom]
  rw [hqf, ← hto]
  change ∃ page, (match (loadFilters c db mem a lim).1.getLast? with | none => _ | some last => _ : Except QueryError Page × List Agg).1 = _ ∧ _
  rw [hlast]
  simp only
  rw [show min (min to (a + limit - 1)) last.toBlock = lim by omega]
  rw [scan_spec q.addrs q.keys q.pageSize v.header v.events _ hbm q.offset [] (by simp)]
  simp only [List.nil_append]
  rw [hbs]
  by_cases hfull : ((H a lim).drop q.offset).length > q.pageSize
  · rw [if_pos hfull]
    obtain ⟨t, h1, h2, h3, h4, h5, h6, h7⟩ := token_spec chain q.addrs q.keys a lim q.offset q.pageSize hfull
    simp only [pageOf]
    rw [h1]
    refine ⟨_, rfl, ?_, fun h => absurd h (by omega), fun _ => ⟨_, rfl, h3, h4, h5, Nat.lt_of_lt_of_le (show t.offset - 1 < t.offset by omega) h6, ?_⟩⟩
    · simp only
      rw [List.take_take, Nat.min_eq_left (by omega)]
    · simp only
      rcases h7 with h | h
      · exact .inl ⟨h.1, by omega⟩
      · exact .inr ⟨h.1, by omega⟩
  · rw [if_neg hfull]
    simp only [pageOf]
    refine ⟨_, rfl, ?_, fun _ => ?_, fun h => absurd h hfull⟩
    · simp only
      rw [List.take_of_length_le (by omega)]
    · simp

end Verif.Events
