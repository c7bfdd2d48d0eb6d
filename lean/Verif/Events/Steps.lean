import Verif.Events.Inv
/-
The steps preserve the invariant.
-/
namespace Verif.Events

variable {c : Cfg}

theorem Covers.mono {a : Agg} {chain chain' : List Body} {lo lo' u u' : Nat} (h : Covers c a chain lo u)
    (hm : ∀ n, lo' ≤ n → a.fromBlock ≤ n → n ≤ a.toBlock → n < u' → lo ≤ n ∧ n < u ∧ chain'[n]? = chain[n]?) :
    Covers c a chain' lo' u' := by
  refine ⟨h.ok, ?_⟩
  intro n b h1 h2 h3 h4 h5
  obtain ⟨g1, g2, g3⟩ := hm n h1 h2 h3 h4
  exact h.bits n b g1 h2 h3 g2 (g3 ▸ h5)

theorem bloom_row_lt {events : List Event} {r : Nat} (h : getBit (blockBloom c events) r = true) : r < c.bits := by
  obtain ⟨e, -, x, -, hr⟩ := ((blockBloom_bit c events).2 r).1 h
  exact indices_lt c x r hr

/-- Inserting the next block. -/
theorem Covers.insert {a a' : Agg} {chain : List Body} {lo : Nat} (h : Covers c a chain lo chain.length) (b : Body)
    (hi : aggInsert c a (blockBloom c (b.txs.flatMap (·.2))) chain.length = some a') :
    Covers c a' (chain ++ [b]) lo (chain.length + 1) ∧ a'.fromBlock = a.fromBlock ∧ a'.toBlock = a.toBlock := by
  obtain ⟨h1, h2, h3, h4, h5, h6⟩ := aggInsert_some h.ok (blockBloom_bit c _).1 hi
  refine ⟨⟨h1, ?_⟩, h2, h3⟩
  intro n b' g1 g2 g3 g4 g5 r hr
  have hto := h.ok.to
  have hp := len_pos c
  rw [h2] at g2 ⊢
  rw [h3] at g3
  rw [h6 r _ (bloom_row_lt hr) (by omega)]
  by_cases hn : n < chain.length
  · left
    rw [List.getElem?_append_left hn] at g5
    exact h.bits n b' g1 g2 g3 hn g5 r hr
  · right
    have : n = chain.length := by omega
    subst this
    rw [List.getElem?_append_right (Nat.le_refl _)] at g5
    simp only [Nat.sub_self, List.getElem?_cons_zero, Option.some.injEq] at g5
    subst g5
    exact ⟨by omega, hr⟩

theorem div_next_same {n L : Nat} (hp : 0 < L) (h : n % L + 1 < L) : (n + 1) / L = n / L := by
  rw [Nat.div_eq_iff hp]
  have := Nat.div_add_mod n L
  rw [Nat.mul_comm] at this
  omega

theorem div_next_wrap {n L : Nat} (hp : 0 < L) (h : n % L + 1 = L) : (n + 1) / L * L = n + 1 := by
  have := Nat.div_add_mod n L
  have h2 : n + 1 = L * (n / L + 1) := by rw [Nat.mul_add]; omega
  rw [h2, Nat.mul_div_cancel_left _ hp, Nat.mul_comm]

theorem mem_putFilter {fs : List Agg} {a x : Agg} (h : x ∈ putFilter fs a) : x ∈ fs ∨ x = a := by
  unfold putFilter at h
  split at h
  · obtain ⟨f, hf, he⟩ := List.mem_map.1 h
    split at he
    · exact .inr he.symm
    · exact .inl (he ▸ hf)
  · rcases List.mem_append.1 h with h | h
    · exact .inl h
    · exact .inr (by simpa using h)

theorem mem_cacheSetMany {cache fs : List Agg} {x : Agg} (h : x ∈ cacheSetMany cache fs) : x ∈ cache ∨ x ∈ fs := by
  unfold cacheSetMany at h
  induction fs generalizing cache with
  | nil => exact .inl h
  | cons f fs ih =>
    rw [List.foldl_cons] at h
    rcases ih h with h | h
    · rcases mem_putFilter h with h | h
      · exact .inl h
      · exact .inr (by simp [h])
    · exact .inr (by simp [h])

/-! ### storing a block -/

theorem nextNumber_eq {db : Db} {chain : List Body} {lo : Nat} (i : DbInv c db chain lo) : nextNumber db = chain.length := by
  unfold nextNumber
  rw [i.latest]
  by_cases h : chain = []
  · simp [h]
  · rw [if_neg h]
    have := List.length_pos_iff.2 h
    simp only
    omega

theorem kept_fst (chain : List Body) (lo : Nat) : (kept chain lo).map (·.1) = chain.drop lo := by
  unfold kept
  rw [List.map_drop]
  congr 1
  exact List.zipIdx_map_fst 0 chain

theorem known_eq {db : Db} {chain : List Body} {lo : Nat} (i : DbInv c db chain lo) (hash : Nat) :
    db.headers.any (fun h => h.2 == hash) = (chain.drop lo).any (fun x => x.hash == hash) := by
  rw [i.headers, ← kept_fst, List.any_map, List.any_map]
  rfl

theorem step_block {s : Sys} {t : Track} (i : Inv c s t) (b : Body) : ∃ s', storeBlock c s b = some s' ∧ Inv c s' (t.step (.block b)) := by
  unfold storeBlock
  simp only [Track.step]
  rw [known_eq i.db, nextNumber_eq i.db]
  by_cases hk : (t.chain.drop t.lo).any (fun x => x.hash == b.hash) = true
  · rw [if_pos hk, if_pos hk]; exact ⟨s, rfl, i⟩
  rw [if_neg hk, if_neg hk]
  have hp := len_pos c
  obtain ⟨hrc, hrf⟩ := i.run
  have hrto := hrc.ok.to
  have hdm := Nat.div_add_mod t.chain.length c.len
  have hml := Nat.mod_lt t.chain.length hp
  rw [Nat.mul_comm] at hdm
  obtain ⟨a', ha⟩ := aggInsert_isSome (c := c) (a := s.mem.running) (blockBloom c (b.txs.flatMap (·.2))) (n := t.chain.length) (by omega) (by omega)
  obtain ⟨hcov, hf, ht⟩ := hrc.insert b ha
  have hlo : t.lo ≤ t.chain.length := by rcases i.db.lo_ok with h | h <;> omega
  unfold upsertFilters
  rw [ha]
  simp only [Option.map_some]
  -- parts that do not depend on the case
  have hheaders : s.db.headers ++ [(t.chain.length, b.hash)] = (kept (t.chain ++ [b]) t.lo).map fun bn => (bn.2, bn.1.hash) := by
    rw [kept_snoc hlo, i.db.headers]; simp
  have htxs : (if b.txs.isEmpty then s.db.txs else s.db.txs ++ [(t.chain.length, b.txs)]) =
      ((kept (t.chain ++ [b]) t.lo).filter fun bn => !bn.1.txs.isEmpty).map fun bn => (bn.2, bn.1.txs) := by
    rw [kept_snoc hlo, i.db.txs, List.filter_append]
    by_cases hb : b.txs.isEmpty = true
    · simp [hb]
    · simp [hb]
  have hfOk : ∀ f ∈ s.db.filters, Covers c f (t.chain ++ [b]) t.lo (t.chain ++ [b]).length ∧ f.fromBlock % c.len = 0 ∧
      f.toBlock < (t.chain ++ [b]).length ∧ t.lo ≤ f.toBlock := by
    intro f hf
    obtain ⟨h1, h2, h3, h4⟩ := i.db.fOk f hf
    refine ⟨h1.mono ?_, h2, by simp; omega, h4⟩
    intro n g1 g2 g3 g4
    exact ⟨g1, by omega, List.getElem?_append_left (by omega)⟩
  have hlo' : t.lo < (t.chain ++ [b]).length ∨ (t.lo = 0 ∧ t.chain ++ [b] = []) := .inl (by simp; omega)
  have hcache : ∀ fs : List Agg, (∀ f ∈ s.db.filters, f ∈ fs) → ∀ f ∈ s.mem.cache, f.fromBlock % c.len = 0 ∧
      f.toBlock = f.fromBlock + c.len - 1 ∧ f.toBlock < (t.chain ++ [b]).length ∧ (t.lo ≤ f.toBlock → f ∈ fs) := by
    intro fs hfs f hf
    obtain ⟨h1, h2, h3, h4⟩ := i.cache f hf
    exact ⟨h1, h2, by simp; omega, fun h => hfs f (h4 h)⟩
  have hsaved : s.db.stored.2 = t.saved ∧ (t.stale = false → Covers c s.db.stored.1 (t.chain ++ [b]) t.lo t.saved ∧
      s.db.stored.1.fromBlock = t.saved / c.len * c.len ∧ t.saved ≤ (t.chain ++ [b]).length) := by
    refine ⟨i.saved.1, fun hst => ?_⟩
    obtain ⟨h1, h2, h3⟩ := i.saved.2 hst
    refine ⟨h1.mono ?_, h2, by simp; omega⟩
    intro n g1 g2 g3 g4
    exact ⟨g1, g4, List.getElem?_append_left (by omega)⟩
  by_cases hend : t.chain.length = a'.toBlock
  · rw [if_pos hend]
    refine ⟨_, rfl, ⟨hlo', hheaders, htxs, ?_, ?_, ?_⟩, ?_, ⟨rfl, .inl (by simp)⟩, ?_, hsaved⟩
    all_goals simp only
    · have hput : putFilter s.db.filters a' = s.db.filters ++ [a'] := by
        unfold putFilter
        rw [if_neg]
        simp only [List.any_eq_true, Bool.and_eq_true, beq_iff_eq, not_exists, not_and]
        intro f hf h1 h2
        have := (i.db.fOk f hf).2.2.1
        omega
      rw [hput]
      intro f hfm
      rcases List.mem_append.1 hfm with h | h
      · exact hfOk f h
      · simp only [List.mem_singleton] at h
        subst h
        refine ⟨by simpa using hcov, ?_, by simp; omega, by omega⟩
        rw [hf, hrf, Nat.mul_mod_left]
    · intro k hk1 hk2
      simp only [List.length_append, List.length_cons, List.length_nil, Nat.zero_add] at hk1
      by_cases hold : k * c.len + c.len ≤ t.chain.length
      · obtain ⟨f, hfm, hff⟩ := i.db.fAll k hold hk2
        refine ⟨f, ?_, hff⟩
        unfold putFilter
        rw [if_neg]
        · exact List.mem_append_left _ hfm
        simp only [List.any_eq_true, Bool.and_eq_true, beq_iff_eq, not_exists, not_and]
        intro f hf h1 h2
        have := (i.db.fOk f hf).2.2.1
        omega
      · refine ⟨a', ?_, ?_⟩
        · unfold putFilter
          rw [if_neg]
          · exact List.mem_append_right _ (List.mem_singleton.2 rfl)
          simp only [List.any_eq_true, Bool.and_eq_true, beq_iff_eq, not_exists, not_and]
          intro f hf h1 h2
          have := (i.db.fOk f hf).2.2.1
          omega
        · omega
    · have hput : putFilter s.db.filters a' = s.db.filters ++ [a'] := by
        unfold putFilter
        rw [if_neg]
        simp only [List.any_eq_true, Bool.and_eq_true, beq_iff_eq, not_exists, not_and]
        intro f hf h1 h2
        have := (i.db.fOk f hf).2.2.1
        omega
      rw [hput, List.map_append, List.nodup_append]
      refine ⟨i.db.fNodup, by simp, ?_⟩
      intro x hx y hy e
      obtain ⟨f, hfm, rfl⟩ := List.mem_map.1 hx
      simp only [List.map_cons, List.map_nil, List.mem_singleton] at hy
      have h1 := (i.db.fOk f hfm).2.2.1
      have h2 := (i.db.fOk f hfm).1.ok.to
      omega
    · have hwrap : t.chain.length % c.len + 1 = c.len := by omega
      refine ⟨⟨aggNew_ok c _, ?_⟩, ?_⟩
      · intro n b' g1 g2 g3 g4 g5
        simp [aggNew] at g2 g4
        omega
      · simp only [aggNew, List.length_append, List.length_cons, List.length_nil, Nat.zero_add]
        exact (div_next_wrap hp hwrap).symm
    · refine hcache _ ?_
      intro f hf
      unfold putFilter
      rw [if_neg]
      · exact List.mem_append_left _ hf
      simp only [List.any_eq_true, Bool.and_eq_true, beq_iff_eq, not_exists, not_and]
      intro f hf h1 h2
      have := (i.db.fOk f hf).2.2.1
      omega
  · rw [if_neg hend]
    have hsame : t.chain.length % c.len + 1 < c.len := by omega
    refine ⟨_, rfl, ⟨hlo', hheaders, htxs, hfOk, ?_, i.db.fNodup⟩, ?_, ⟨rfl, .inl (by simp)⟩, hcache _ (fun _ h => h), hsaved⟩
    · intro k hk1 hk2
      simp only [List.length_append, List.length_cons, List.length_nil, Nat.zero_add] at hk1
      apply i.db.fAll k _ hk2
      apply Nat.le_of_not_lt
      intro hgt
      have he : t.chain.length + 1 = k * c.len + c.len := by omega
      have h1 := div_next_same hp hsame
      have h2 : (t.chain.length + 1) % c.len = 0 := by
        rw [he, Nat.add_mod_right, Nat.mul_mod_left]
      have h3 := Nat.div_add_mod (t.chain.length + 1) c.len
      rw [h1, h2, Nat.mul_comm] at h3
      omega
    · refine ⟨by simpa using hcov, ?_⟩
      simp only [hf, hrf, List.length_append, List.length_cons, List.length_nil, Nat.zero_add]
      rw [div_next_same hp hsame]

/-! ### rebuilding the running filter -/

theorem lastFilter_spec (fs : List Agg) :
    match lastFilter fs with
    | none => fs = []
    | some f => f ∈ fs ∧ ∀ g ∈ fs, g.fromBlock ≤ f.fromBlock := by
  induction fs with
  | nil => simp [lastFilter]
  | cons f fs ih =>
    unfold lastFilter
    cases h : lastFilter fs with
    | none =>
      rw [h] at ih
      simp only at ih
      subst ih
      simp
    | some g =>
      rw [h] at ih
      simp only at ih
      simp only
      by_cases hlt : f.fromBlock < g.fromBlock
      · rw [if_pos hlt]
        refine ⟨by simp [ih.1], fun x hx => ?_⟩
        rcases List.mem_cons.1 hx with hx | hx
        · subst hx; omega
        · exact ih.2 x hx
      · rw [if_neg hlt]
        refine ⟨by simp, fun x hx => ?_⟩
        rcases List.mem_cons.1 hx with hx | hx
        · subst hx; omega
        · have := ih.2 x hx; omega

theorem rebuild_fold (rows : List (Nat × List (Nat × List Event))) (a : Agg) (ok : a.Ok c)
    (hr : ∀ r ∈ rows, a.fromBlock ≤ r.1 ∧ r.1 ≤ a.toBlock) :
    ∃ a', rows.foldlM (fun a r => aggInsert c a (blockBloom c (r.2.flatMap (·.2))) r.1) a = some a' ∧ a'.Ok c ∧
      a'.fromBlock = a.fromBlock ∧
      (∀ r b, r < c.bits → b < c.len → aggBit c a r b = true → aggBit c a' r b = true) ∧
      ∀ row ∈ rows, ∀ r, getBit (blockBloom c (row.2.flatMap (·.2))) r = true → aggBit c a' r (row.1 - a.fromBlock) = true := by
  induction rows generalizing a with
  | nil => exact ⟨a, rfl, ok, rfl, fun _ _ _ _ h => h, by simp⟩
  | cons row rows ih =>
    obtain ⟨g1, g2⟩ := hr row (by simp)
    obtain ⟨a1, ha1⟩ := aggInsert_isSome (c := c) (blockBloom c (row.2.flatMap (·.2))) g1 g2
    obtain ⟨h1, h2, h3, -, -, h6⟩ := aggInsert_some ok (blockBloom_bit c _).1 ha1
    obtain ⟨a2, ha2, k1, k2, k3, k4⟩ := ih a1 h1 (fun r hm => by rw [h2, h3]; exact hr r (by simp [hm]))
    refine ⟨a2, ?_, k1, by omega, ?_, ?_⟩
    · rw [List.foldlM_cons, ha1]
      exact ha2
    · intro r b hr hb h
      exact k3 r b hr hb ((h6 r b hr hb).2 (.inl h))
    · intro row' hm r hrb
      rcases List.mem_cons.1 hm with hm | hm
      · subst hm
        have hb : row'.1 - a.fromBlock < c.len := by have := ok.to; have := len_pos c; omega
        apply k3 r _ (bloom_row_lt hrb) hb
        rw [h6 r _ (bloom_row_lt hrb) hb]
        exact .inr ⟨by omega, hrb⟩
      · rw [← h2]
        exact k4 row' hm r hrb

theorem rebuild_spec {db : Db} {chain : List Body} {lo latest : Nat} (i : DbInv c db chain lo) (hl : latest = chain.length - 1) :
    ∃ a, rebuild c db latest = some (a, latest + 1) ∧ RunInv c a chain lo := by
  have hp := len_pos c
  have hdm := Nat.div_add_mod chain.length c.len
  have hml := Nat.mod_lt chain.length hp
  rw [Nat.mul_comm] at hdm
  -- filters end below the running range
  have hbelow : ∀ f ∈ db.filters, f.toBlock + 1 ≤ chain.length / c.len * c.len ∧ f.toBlock + 1 = f.fromBlock + c.len := by
    intro f hf
    have h := i.fOk f hf
    have e := Nat.div_add_mod f.fromBlock c.len
    rw [h.2.1, Nat.mul_comm] at e
    have := h.1.ok.to
    have hlt : f.fromBlock / c.len < chain.length / c.len := by
      apply Nat.lt_of_not_le
      intro hle
      have := Nat.mul_le_mul_right c.len hle
      omega
    have := Nat.mul_le_mul_right c.len (Nat.succ_le_of_lt hlt)
    rw [Nat.succ_eq_add_one, Nat.add_mul, Nat.one_mul] at this
    omega
  -- the last filter, if any, ends just below it
  have hlastTo : ∀ f, lastFilter db.filters = some f → f.toBlock + 1 = chain.length / c.len * c.len := by
    intro f hf
    have hs := lastFilter_spec db.filters
    rw [hf] at hs
    simp only at hs
    have hb := hbelow f hs.1
    apply Nat.le_antisymm hb.1
    apply Nat.le_of_not_lt
    intro hlt
    -- the range before the running range is complete, so it has a filter, which is later than `f`
    obtain ⟨k, hk⟩ : ∃ k, chain.length / c.len = k + 1 := Nat.exists_eq_succ_of_ne_zero (by
      intro h; rw [h] at hlt; omega)
    rw [hk, Nat.add_mul, Nat.one_mul] at hdm hlt
    obtain ⟨g, hg, hgf⟩ := i.fAll k (by omega) (by have := (i.fOk f hs.1).2.2.2; omega)
    have := hs.2 g hg
    omega
  unfold rebuild
  by_cases hcomplete : (lastFilter db.filters).map (·.toBlock) = some latest
  · rw [if_pos hcomplete]
    rw [Option.map_eq_some_iff] at hcomplete
    obtain ⟨f, hf, hfl⟩ := hcomplete
    have h1 := hlastTo f hf
    refine ⟨_, rfl, ⟨aggNew_ok c _, ?_⟩, ?_⟩
    · intro n b g1 g2 g3 g4 g5
      simp only [aggNew] at g2
      omega
    · simp only [aggNew]; omega
  · rw [if_neg hcomplete]
    have hfirst : rebuildFrom c db latest = chain.length / c.len * c.len := by
      unfold rebuildFrom
      have hs := lastFilter_spec db.filters
      cases hf : lastFilter db.filters with
      | some f => exact hlastTo f hf
      | none =>
        rw [hf] at hs
        simp only at hs ⊢
        have hdl := Nat.div_add_mod latest c.len
        have hmll := Nat.mod_lt latest hp
        rw [Nat.mul_comm] at hdl
        by_cases hc : chain = []
        · subst hc; subst hl; simp
        have hpos := List.length_pos_iff.2 hc
        have hlc : latest + 1 = chain.length := by omega
        -- if the head ends a range there is a filter
        by_cases hw : latest % c.len + 1 = c.len
        · have hw2 := div_next_wrap hp hw
          rw [hlc] at hw2
          obtain ⟨k, hk⟩ : ∃ k, chain.length / c.len = k + 1 := Nat.exists_eq_succ_of_ne_zero (by
            intro h; rw [h] at hw2; omega)
          rw [hk, Nat.add_mul, Nat.one_mul] at hw2
          obtain ⟨g, hg, -⟩ := i.fAll k (by omega) (by rcases i.lo_ok with h | h <;> omega)
          rw [hs] at hg
          simp at hg
        · have := div_next_same (n := latest) hp (by omega)
          rw [hlc] at this
          rw [this]
          omega
    rw [hfirst]
    have hrows : ∀ r ∈ db.txs.filter (fun r => decide (chain.length / c.len * c.len ≤ r.1)),
        (∃ b, lo ≤ r.1 ∧ chain[r.1]? = some b ∧ b.txs = r.2) ∧ chain.length / c.len * c.len ≤ r.1 := by
      intro r hr
      rw [List.mem_filter, i.txs, List.mem_map] at hr
      obtain ⟨⟨bn, hbn, rfl⟩, hr⟩ := hr
      rw [List.mem_filter, mem_kept] at hbn
      exact ⟨⟨bn.1, hbn.1.1, hbn.1.2, rfl⟩, by simpa using hr⟩
    obtain ⟨a', h1, h2, h3, -, h5⟩ := rebuild_fold (c := c) (db.txs.filter fun r => decide (chain.length / c.len * c.len ≤ r.1))
      (aggNew c (chain.length / c.len * c.len)) (aggNew_ok c _) (by
        intro r hr
        obtain ⟨⟨b, -, hb, -⟩, hr⟩ := hrows r hr
        have := (List.getElem?_eq_some_iff.1 hb).1
        simp only [aggNew]
        omega)
    refine ⟨a', by simp only [h1]; rfl, ⟨h2, ?_⟩, h3⟩
    intro n b g1 g2 g3 g4 g5 r hr
    have hne : b.txs ≠ [] := by
      intro h
      rw [h] at hr
      obtain ⟨e, he, -⟩ := ((blockBloom_bit c _).2 r).1 hr
      simp at he
    have := h5 (n, b.txs) (by
      rw [List.mem_filter, i.txs, List.mem_map]
      refine ⟨⟨(b, n), ?_, rfl⟩, ?_⟩
      · rw [List.mem_filter, mem_kept]
        exact ⟨⟨g1, g5⟩, by simpa using hne⟩
      · rw [h3] at g2
        simpa [aggNew] using g2) r hr
    rw [h3]
    exact this

/-! ### reorg -/

theorem filter_filter_congr {α : Type} {p q r : α → Bool} (l : List α) (h : ∀ x, (p x && q x) = r x) :
    (l.filter q).filter p = l.filter r := by
  rw [List.filter_filter]
  congr 1
  funext x
  exact h x

theorem purgeDown_eq (db : Db) (tail d : Nat) : purgeDown db tail d =
    { db with
      filters := db.filters.filter fun f => !(decide (f.fromBlock ≤ tail + d) && decide (tail ≤ f.toBlock) && decide (f.fromBlock ≤ f.toBlock))
      headers := db.headers.filter fun h => !(decide (tail ≤ h.1) && decide (h.1 ≤ tail + d))
      txs := db.txs.filter fun t => !(decide (tail ≤ t.1) && decide (t.1 ≤ tail + d)) } := by
  induction d generalizing db with
  | zero =>
    simp only [purgeDown, purgeBlock, Nat.add_zero]
    congr 1
    · congr 1; funext x; rw [Bool.eq_iff_iff]; simp; omega
    · congr 1; funext x; rw [Bool.eq_iff_iff]; simp; omega
    · congr 1; funext x; rw [Bool.eq_iff_iff]; simp; omega
  | succ d ih =>
    simp only [purgeDown, purgeBlock]
    rw [ih]
    simp only
    congr 1
    · apply filter_filter_congr; intro x; rw [Bool.eq_iff_iff]; simp; omega
    · apply filter_filter_congr; intro x; rw [Bool.eq_iff_iff]; simp; omega
    · apply filter_filter_congr; intro x; rw [Bool.eq_iff_iff]; simp; omega

theorem filter_congr_mem {α : Type} {p q : α → Bool} {l : List α} (h : ∀ x ∈ l, p x = q x) : l.filter p = l.filter q :=
  List.filter_congr h

theorem hasBlock_eq {db : Db} {chain : List Body} {lo : Nat} (i : DbInv c db chain lo) (n : Nat) :
    hasBlock db n = true ↔ lo ≤ n ∧ n < chain.length := by
  unfold hasBlock
  rw [i.headers, List.any_map, List.any_eq_true]
  constructor
  · rintro ⟨bn, h1, h2⟩
    simp only [Function.comp_apply, beq_iff_eq] at h2
    rw [mem_kept] at h1
    subst h2
    exact ⟨h1.1, (List.getElem?_eq_some_iff.1 h1.2).1⟩
  · rintro ⟨h1, h2⟩
    exact ⟨(chain[n], n), mem_kept.2 ⟨h1, List.getElem?_eq_getElem h2⟩, by simp⟩

theorem DbInv.cut {db : Db} {chain : List Body} {lo tail d : Nat} (i : DbInv c db chain lo) (h : tail + d + 1 = chain.length)
    (hlo : tail = 0 ∧ lo = 0 ∨ lo < tail) : DbInv c (purgeDown db tail d) (chain.take tail) lo := by
  have hp := len_pos c
  have hlen : (chain.take tail).length = tail := by rw [List.length_take]; omega
  rw [purgeDown_eq]
  refine ⟨?_, ?_, ?_, ?_, ?_, ?_⟩
  · rcases hlo with ⟨h1, h2⟩ | h1
    · right; subst h1; simp [h2]
    · left; omega
  · simp only
    rw [i.headers, List.filter_map, ← kept_filter_lt]
    congr 1
    apply filter_congr_mem
    intro bn hbn
    have := (List.getElem?_eq_some_iff.1 (mem_kept.1 hbn).2).1
    rw [Bool.eq_iff_iff]; simp; omega
  · simp only
    rw [i.txs, List.filter_map, ← kept_filter_lt, List.filter_filter, List.filter_filter]
    congr 1
    apply filter_congr_mem
    intro bn hbn
    have := (List.getElem?_eq_some_iff.1 (mem_kept.1 hbn).2).1
    rw [Bool.eq_iff_iff]
    simp only [Function.comp_apply, Bool.and_eq_true, Bool.not_eq_true', Bool.and_eq_false_iff, decide_eq_false_iff_not, decide_eq_true_eq]
    constructor
    · rintro ⟨h1, h2⟩; exact ⟨h2, by omega⟩
    · rintro ⟨h1, h2⟩; exact ⟨.inl (by omega), h1⟩
  · intro f hf
    simp only [List.mem_filter, Bool.not_eq_true', Bool.and_eq_false_iff, decide_eq_false_iff_not] at hf
    obtain ⟨h1, h2, h3, h4⟩ := i.fOk f hf.1
    have hto := h1.ok.to
    have : f.toBlock < tail := by omega
    refine ⟨h1.mono ?_, h2, by omega, h4⟩
    intro n g1 g2 g3 g4
    exact ⟨g1, by omega, List.getElem?_take_of_lt (by omega)⟩
  · intro k hk1 hk2
    obtain ⟨f, hf, hff⟩ := i.fAll k (by omega) hk2
    refine ⟨f, ?_, hff⟩
    have := (i.fOk f hf).1.ok.to
    simp only [List.mem_filter, Bool.not_eq_true', Bool.and_eq_false_iff, decide_eq_false_iff_not]
    exact ⟨hf, by omega⟩
  · simp only
    exact i.fNodup.sublist (List.filter_sublist.map _)

theorem purgeDown_stored (db : Db) (tail d : Nat) : (purgeDown db tail d).stored = db.stored := by rw [purgeDown_eq]

theorem step_reorg {s : Sys} {t : Track} (i : Inv c s t) (tail : Nat) : ∃ s', l2Reorg c s tail = some s' ∧ Inv c s' (t.step (.reorg tail)) := by
  unfold l2Reorg
  rw [i.db.latest]
  simp only [Track.step]
  by_cases hc : t.chain = []
  · rw [if_pos hc, if_neg (by rw [hc]; simp)]
    exact ⟨s, rfl, i⟩
  rw [if_neg hc]
  simp only
  have hpos := List.length_pos_iff.2 hc
  by_cases hcond : t.lo ≤ tail ∧ tail < t.chain.length ∧ (tail = 0 ∨ t.lo ≤ tail - 1)
  · rw [if_pos hcond, if_pos (by
      simp only [Bool.and_eq_true, Bool.or_eq_true, hasBlock_eq i.db, beq_iff_eq]
      refine ⟨⟨hcond.1, hcond.2.1⟩, ?_⟩
      rcases hcond.2.2 with h | h
      · exact .inl h
      · exact .inr ⟨h, by omega⟩)]
    have hlen : (t.chain.take tail).length = tail := by rw [List.length_take]; omega
    have hd := i.db.cut (tail := tail) (d := t.chain.length - 1 - tail) (by omega) (by omega)
    unfold resetInMemoryState
    obtain ⟨a, ha, hr⟩ := rebuild_spec hd (latest := tail - 1) (by rw [hlen])
    rw [ha]
    refine ⟨_, rfl, hd, hr, ⟨rfl, ?_⟩, by simp, ?_⟩
    · simp only
      by_cases h0 : tail = 0
      · right; rw [h0]; simp
      · left; omega
    · simp only
      rw [purgeDown_stored]
      refine ⟨i.saved.1, ?_⟩
      intro hst
      simp only [Bool.or_eq_false_iff, decide_eq_false_iff_not] at hst
      obtain ⟨h1, h2, h3⟩ := i.saved.2 hst.1
      refine ⟨h1.mono ?_, h2, by omega⟩
      intro n g1 g2 g3 g4
      exact ⟨g1, g4, List.getElem?_take_of_lt (by omega)⟩
  · rw [if_neg hcond, if_neg (by
      simp only [Bool.and_eq_true, Bool.or_eq_true, hasBlock_eq i.db, beq_iff_eq]
      omega)]
    exact ⟨s, rfl, i⟩

/-! ### pruning -/

theorem DbInv.pruneOne {db : Db} {chain : List Body} {lo : Nat} (i : DbInv c db chain lo) (h : lo + 1 < chain.length) :
    DbInv c (pruneBlock c db lo) chain (lo + 1) := by
  have hp := len_pos c
  unfold pruneBlock
  refine ⟨.inl h, ?_, ?_, ?_, ?_, ?_⟩
  · simp only
    rw [i.headers, List.filter_map, ← kept_filter_ge (show lo ≤ lo + 1 by omega)]
    congr 1
    apply filter_congr_mem
    intro bn hbn
    have := (mem_kept.1 hbn).1
    rw [Bool.eq_iff_iff]; simp; omega
  · simp only
    rw [i.txs, List.filter_map, ← kept_filter_ge (show lo ≤ lo + 1 by omega), List.filter_filter, List.filter_filter]
    congr 1
    apply filter_congr_mem
    intro bn hbn
    have := (mem_kept.1 hbn).1
    rw [Bool.eq_iff_iff]
    simp only [Function.comp_apply, Bool.and_eq_true, Bool.not_eq_true', bne_iff_ne, ne_eq, decide_eq_true_eq]
    constructor
    · rintro ⟨h1, h2⟩; exact ⟨h2, by omega⟩
    · rintro ⟨h1, h2⟩; exact ⟨by omega, h1⟩
  · intro f hf
    have hf' : f ∈ db.filters ∧ f.toBlock ≠ lo := by
      simp only at hf
      split at hf
      · rw [List.mem_filter] at hf
        exact ⟨hf.1, by simpa using hf.2⟩
      · refine ⟨hf, ?_⟩
        intro e
        rename_i hne
        apply hne
        obtain ⟨h1, h2, -, -⟩ := i.fOk f hf
        have := h1.ok.to
        rw [← e, show f.toBlock + 1 = f.fromBlock + c.len by omega, Nat.add_mod_right, h2]
    obtain ⟨h1, h2, h3, h4⟩ := i.fOk f hf'.1
    refine ⟨h1.mono ?_, h2, h3, by have := hf'.2; omega⟩
    intro n g1 g2 g3 g4
    exact ⟨by omega, g4, rfl⟩
  · intro k hk1 hk2
    obtain ⟨f, hf, hff⟩ := i.fAll k hk1 (by omega)
    refine ⟨f, ?_, hff⟩
    have := (i.fOk f hf).1.ok.to
    simp only
    split
    · rw [List.mem_filter]
      exact ⟨hf, by simp; omega⟩
    · exact hf
  · simp only
    split
    · exact i.fNodup.sublist (List.filter_sublist.map _)
    · exact i.fNodup

theorem DbInv.pruneLoop {db : Db} {chain : List Body} {lo d : Nat} (i : DbInv c db chain lo) (h : lo + d < chain.length) :
    DbInv c (pruneLoop c db lo d) chain (lo + d) ∧ (Verif.Events.pruneLoop c db lo d).stored = db.stored ∧
      ∀ f ∈ db.filters, lo + d ≤ f.toBlock → f ∈ (Verif.Events.pruneLoop c db lo d).filters := by
  induction d generalizing db lo with
  | zero => exact ⟨i, rfl, fun f hf _ => hf⟩
  | succ d ih =>
    unfold Verif.Events.pruneLoop
    rw [if_pos ((hasBlock_eq i lo).2 ⟨Nat.le_refl _, by omega⟩)]
    obtain ⟨h1, h2, h3⟩ := ih (i.pruneOne (by omega)) (by omega)
    rw [show lo + 1 + d = lo + (d + 1) by omega] at h1 h3
    refine ⟨h1, h2, ?_⟩
    intro f hf hlt
    apply h3 f _ hlt
    simp only [pruneBlock]
    split
    · rw [List.mem_filter]
      exact ⟨hf, by simp; omega⟩
    · exact hf

theorem Covers.raise {a : Agg} {chain : List Body} {lo lo' u : Nat} (h : Covers c a chain lo u) (hl : lo ≤ lo') : Covers c a chain lo' u :=
  h.mono fun n g1 _ _ g4 => ⟨by omega, g4, rfl⟩

theorem step_prune {s : Sys} {t : Track} (i : Inv c s t) (point kept : Nat) :
    Inv c { s with db := prune c s.db point kept } (t.step (.prune point kept)) := by
  unfold prune
  rw [i.db.latest, i.db.earliest]
  simp only [Track.step]
  by_cases hc : t.chain = []
  · rw [if_pos hc, if_pos hc]
    simp only
    rw [if_neg (by rw [hc]; simp)]
    exact i
  rw [if_neg hc, if_neg hc]
  simp only
  have hpos := List.length_pos_iff.2 hc
  by_cases hcond : point < t.chain.length ∧ kept ≤ point
  · rw [if_pos (by omega), if_pos hcond]
    have hlo : t.lo < t.chain.length := by rcases i.db.lo_ok with h | h <;> omega
    obtain ⟨h1, h2, h3⟩ := i.db.pruneLoop (d := point - kept - t.lo) (by omega)
    rw [show t.lo + (point - kept - t.lo) = max t.lo (point - kept) by omega] at h1 h3
    refine ⟨h1, ⟨i.run.1.raise (by simp only; omega), i.run.2⟩, i.next, ?_, ?_⟩
    · intro f hf
      obtain ⟨g1, g2, g3, g4⟩ := i.cache f hf
      refine ⟨g1, g2, g3, fun h => h3 f (g4 ?_) h⟩
      simp only at h
      omega
    · simp only
      rw [h2]
      refine ⟨i.saved.1, fun hst => ?_⟩
      obtain ⟨g1, g2, g3⟩ := i.saved.2 hst
      exact ⟨g1.raise (by omega), g2, g3⟩
  · rw [if_neg (by omega), if_neg hcond]
    exact i

/-! ### queries and cache -/

theorem events_cache (s : Sys) (pr : Bool) (limit : Nat) (q : Constraints) :
    ∀ f ∈ (events c s.db s.mem pr limit q).2, f ∈ s.mem.cache ∨ f ∈ s.db.filters := by
  have hload : ∀ a b, ∀ f ∈ (loadFilters c s.db s.mem a b).2, f ∈ s.mem.cache ∨ f ∈ s.db.filters := by
    intro a b f hf
    unfold loadFilters at hf
    simp only at hf
    rcases mem_cacheSetMany hf with h | h
    · exact .inl h
    · unfold loadRows at h
      rw [mem_sortFilters, List.mem_filter] at h
      exact .inr h.1
  intro f hf
  unfold events at hf
  split at hf
  · exact .inl hf
  split at hf
  · exact .inl hf
  simp only at hf
  split at hf
  · exact hload _ _ f hf
  split at hf
  · exact hload _ _ f hf
  · exact hload _ _ f hf

theorem step_query {s : Sys} {t : Track} (i : Inv c s t) (pr : Bool) (limit : Nat) (q : Constraints) :
    Inv c { s with mem := { s.mem with cache := (events c s.db s.mem pr limit q).2 } } t := by
  refine ⟨i.db, i.run, i.next, ?_, i.saved⟩
  intro f hf
  rcases events_cache s pr limit q f hf with h | h
  · exact i.cache f h
  · obtain ⟨h1, h2, h3, h4⟩ := i.db.fOk f h
    exact ⟨h2, h1.ok.to, h3, fun _ => h⟩

theorem step_evict {s : Sys} {t : Track} (i : Inv c s t) (keep : List Nat) :
    Inv c { s with mem := { s.mem with cache := s.mem.cache.filter fun f => keep.contains f.fromBlock } } t :=
  ⟨i.db, i.run, i.next, fun f hf => i.cache f (List.mem_filter.1 hf).1, i.saved⟩

/-! ### restarts -/

theorem open_spec {db : Db} {t : Track} (i : DbInv c db t.chain t.lo)
    (hs : db.stored.2 = t.saved ∧ (t.stale = false → Covers c db.stored.1 t.chain t.lo t.saved ∧
      db.stored.1.fromBlock = t.saved / c.len * c.len ∧ t.saved ≤ t.chain.length))
    (hok : ¬ (t.stale = true ∧ t.saved = t.chain.length)) :
    ∃ s', openStorage c db = some s' ∧ Inv c s' { t with next := t.chain.length } := by
  unfold openStorage loadRunning
  rw [i.latest]
  by_cases hc : t.chain = []
  · rw [if_pos hc]
    refine ⟨_, rfl, i, ?_, ⟨?_, .inr hc⟩, by simp, hs⟩
    · refine ⟨⟨aggNew_ok c 0, ?_⟩, ?_⟩
      · intro n b g1 g2 g3 g4 g5
        simp [hc] at g5
      · simp [hc, aggNew]
    · simp [hc]
  rw [if_neg hc]
  have hpos := List.length_pos_iff.2 hc
  simp only
  by_cases hsaved : db.stored.2 = t.chain.length - 1 + 1
  · rw [if_pos hsaved]
    have hsl : t.saved = t.chain.length := by omega
    have hst : t.stale = false := by
      cases h : t.stale with
      | false => rfl
      | true => exact absurd ⟨h, hsl⟩ hok
    obtain ⟨h1, h2, h3⟩ := hs.2 hst
    rw [hsl] at h1 h2
    exact ⟨_, rfl, i, ⟨h1, h2⟩, ⟨by simp only; omega, .inl rfl⟩, by simp, hs⟩
  · rw [if_neg hsaved]
    obtain ⟨a, ha, hr⟩ := rebuild_spec i (latest := t.chain.length - 1) rfl
    rw [ha]
    exact ⟨_, rfl, i, hr, ⟨by simp only; omega, .inl rfl⟩, by simp, hs⟩

theorem step_shutdown {s : Sys} {t : Track} (i : Inv c s t) :
    ∃ s', openStorage c (storeInMemoryState s) = some s' ∧ Inv c s' (t.step .shutdown) := by
  simp only [Track.step]
  have hdb : DbInv c (storeInMemoryState s) t.chain t.lo := by
    obtain ⟨h1, h2, h3, h4, h5, h6⟩ := i.db
    exact ⟨h1, h2, h3, h4, h5, h6⟩
  obtain ⟨s', h1, h2⟩ := open_spec (t := { t with saved := t.next, stale := decide (t.next ≠ t.chain.length) }) hdb (by
      simp only [storeInMemoryState]
      refine ⟨i.next.1, fun hst => ?_⟩
      simp only [ne_eq, decide_not, Bool.not_eq_false', decide_eq_true_eq] at hst
      rw [hst]
      exact ⟨i.run.1, i.run.2, Nat.le_refl _⟩) (by
      simp only [ne_eq, decide_eq_true_eq]
      rintro ⟨h1, h2⟩
      exact h1 h2)
  exact ⟨s', h1, h2⟩

/-! ### all histories -/

theorem initial_inv (c : Cfg) : Inv c (initial c) {} := by
  have hcov : Covers c (aggNew c 0) [] 0 0 := ⟨aggNew_ok c 0, fun n b _ _ _ h => absurd h (by omega)⟩
  refine ⟨⟨.inr ⟨rfl, rfl⟩, rfl, rfl, by simp [initial], ?_, by simp [initial]⟩, ⟨hcov, by simp [initial, aggNew]⟩, ⟨rfl, .inr rfl⟩,
    by simp [initial], rfl, fun _ => ⟨hcov, by simp [initial, aggNew], Nat.le_refl _⟩⟩
  intro k hk
  have := len_pos c
  simp at hk
  omega

theorem step_inv {s : Sys} {t : Track} (i : Inv c s t) (op : Op)
    (hok : op = .crash → ¬ (t.stale = true ∧ t.saved = t.chain.length)) : ∃ s', step c s op = some s' ∧ Inv c s' (t.step op) := by
  cases op with
  | block b => exact step_block i b
  | reorg tail => exact step_reorg i tail
  | prune p k => exact ⟨_, rfl, step_prune i p k⟩
  | query pr limit q => exact ⟨_, rfl, step_query i pr limit q⟩
  | evict keep => exact ⟨_, rfl, step_evict i keep⟩
  | shutdown => exact step_shutdown i
  | crash => exact open_spec i.db i.saved (hok rfl)

theorem run_inv {ops : List Op} (h : CrashOk ops) : ∃ s, run c ops = some s ∧ Inv c s (Track.run ops) := by
  have key : ∀ (pre post : List Op) (s : Sys), ops = pre ++ post → Inv c s (Track.run pre) →
      ∃ s', post.foldlM (step c) s = some s' ∧ Inv c s' (Track.run ops) := by
    intro pre post
    induction post generalizing pre with
    | nil => intro s he i; exact ⟨s, rfl, by rw [he]; simpa using i⟩
    | cons op post ih =>
      intro s he i
      obtain ⟨s1, h1, h2⟩ := step_inv i op (by
        intro hop
        subst hop
        exact h pre post he)
      have h2' : Inv c s1 (Track.run (pre ++ [op])) := by
        unfold Track.run at h2 ⊢
        rw [List.foldl_append]
        exact h2
      obtain ⟨s2, h3, h4⟩ := ih (pre ++ [op]) s1 (by rw [he]; simp) h2'
      refine ⟨s2, ?_, h4⟩
      rw [List.foldlM_cons, h1]
      exact h3
  exact key [] ops (initial c) rfl (initial_inv c)

end Verif.Events
