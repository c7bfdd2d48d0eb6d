import Verif.Events.Query
/-
The invariant that ties the storage to the history, and what it gives to queries.
-/
namespace Verif.Events

/-- The blocks that are not pruned, with their numbers. -/
def kept (chain : List Body) (lo : Nat) : List (Body × Nat) := chain.zipIdx.drop lo

/-- The tables. -/
structure DbInv (c : Cfg) (db : Db) (chain : List Body) (lo : Nat) : Prop where
  lo_ok : lo < chain.length ∨ (lo = 0 ∧ chain = [])
  headers : db.headers = (kept chain lo).map fun bn => (bn.2, bn.1.hash)
  txs : db.txs = ((kept chain lo).filter fun bn => !bn.1.txs.isEmpty).map fun bn => (bn.2, bn.1.txs)
  fOk : ∀ f ∈ db.filters, Covers c f chain lo chain.length ∧ f.fromBlock % c.len = 0 ∧ f.toBlock < chain.length ∧ lo ≤ f.toBlock
  fAll : ∀ k, k * c.len + c.len ≤ chain.length → lo < k * c.len + c.len → ∃ f ∈ db.filters, f.fromBlock = k * c.len
  fNodup : (db.filters.map (·.fromBlock)).Nodup

/-- The running filter. -/
def RunInv (c : Cfg) (a : Agg) (chain : List Body) (lo : Nat) : Prop :=
  Covers c a chain lo chain.length ∧ a.fromBlock = chain.length / c.len * c.len

structure Inv (c : Cfg) (s : Sys) (t : Track) : Prop where
  db : DbInv c s.db t.chain t.lo
  run : RunInv c s.mem.running t.chain t.lo
  next : s.mem.next = t.next ∧ (t.next = t.chain.length ∨ t.chain = [])
  cache : ∀ f ∈ s.mem.cache, f.fromBlock % c.len = 0 ∧ f.toBlock = f.fromBlock + c.len - 1 ∧ f.toBlock < t.chain.length ∧
    (t.lo ≤ f.toBlock → f ∈ s.db.filters)
  saved : s.db.stored.2 = t.saved ∧ (t.stale = false → Covers c s.db.stored.1 t.chain t.lo t.saved ∧
    s.db.stored.1.fromBlock = t.saved / c.len * c.len ∧ t.saved ≤ t.chain.length)

/-! ### the kept blocks -/

theorem mem_kept {chain : List Body} {lo : Nat} {bn : Body × Nat} : bn ∈ kept chain lo ↔ lo ≤ bn.2 ∧ chain[bn.2]? = some bn.1 := by
  unfold kept
  rw [List.mem_iff_getElem?]
  simp only [List.getElem?_drop, List.getElem?_zipIdx]
  constructor
  · rintro ⟨i, hi⟩
    rw [Option.map_eq_some_iff] at hi
    obtain ⟨x, hx, rfl⟩ := hi
    simp only [Nat.zero_add]
    exact ⟨by omega, hx⟩
  · rintro ⟨h1, h2⟩
    refine ⟨bn.2 - lo, ?_⟩
    rw [show lo + (bn.2 - lo) = bn.2 by omega, h2]
    simp

theorem kept_numbers (chain : List Body) (lo : Nat) : (kept chain lo).map (·.2) = List.range' lo (chain.length - lo) := by
  unfold kept
  rw [List.map_drop]
  have : chain.zipIdx.map (·.2) = List.range' 0 chain.length := by
    have := List.zipIdx_map_snd 0 chain
    exact this
  rw [this]
  apply List.ext_getElem?
  intro i
  rw [List.getElem?_drop]
  by_cases h : lo + i < chain.length
  · rw [List.getElem?_range' h, List.getElem?_range' (by omega)]
    simp
  · rw [List.getElem?_eq_none (by simp; omega), List.getElem?_eq_none (by simp; omega)]

theorem kept_nodup (chain : List Body) (lo : Nat) : ((kept chain lo).map (·.2)).Nodup := by
  rw [kept_numbers]; exact List.nodup_range'

theorem kept_snoc {chain : List Body} {lo : Nat} (h : lo ≤ chain.length) (b : Body) :
    kept (chain ++ [b]) lo = kept chain lo ++ [(b, chain.length)] := by
  unfold kept
  rw [List.zipIdx_append, List.drop_append_of_le_length (by simpa using h)]
  simp

theorem drop_zipIdx (l : List Body) (j : Nat) : (l.zipIdx).drop j = (l.drop j).zipIdx j := by
  apply List.ext_getElem?
  intro i
  simp only [List.getElem?_drop, List.getElem?_zipIdx, Nat.zero_add]

theorem kept_filter_lt (chain : List Body) (lo tail : Nat) :
    (kept chain lo).filter (fun bn => decide (bn.2 < tail)) = kept (chain.take tail) lo := by
  have key : ∀ (l : List Body) (k : Nat), (l.zipIdx k).filter (fun bn => decide (bn.2 < tail)) = (l.take (tail - k)).zipIdx k := by
    intro l
    induction l with
    | nil => intro k; simp
    | cons x l ih =>
      intro k
      rw [List.zipIdx_cons, List.filter_cons]
      by_cases h : k < tail
      · obtain ⟨j, hj⟩ : ∃ j, tail - k = j + 1 := ⟨tail - k - 1, by omega⟩
        simp only [h, decide_true, ite_true, hj, List.take_succ_cons, List.zipIdx_cons, ih]
        rw [show tail - (k + 1) = j by omega]
      · simp only [h, decide_false, ih]
        rw [show tail - k = 0 by omega, show tail - (k + 1) = 0 by omega]
        simp
  have drop : ∀ (l : List Body) (j : Nat), (l.zipIdx).drop j = (l.drop j).zipIdx j := by
    exact drop_zipIdx
  unfold kept
  rw [drop, key, drop, List.drop_take]

theorem kept_filter_ge {chain : List Body} {lo m : Nat} (h : lo ≤ m) :
    (kept chain lo).filter (fun bn => decide (m ≤ bn.2)) = kept chain m := by
  have drop : ∀ (l : List Body) (j : Nat), (l.zipIdx).drop j = (l.drop j).zipIdx j := by
    exact drop_zipIdx
  have key : ∀ (l : List Body) (k : Nat), (l.zipIdx k).filter (fun bn => decide (m ≤ bn.2)) = (l.drop (m - k)).zipIdx (max m k) := by
    intro l
    induction l with
    | nil => intro k; simp
    | cons x l ih =>
      intro k
      rw [List.zipIdx_cons, List.filter_cons]
      by_cases hk : m ≤ k
      · simp only [hk, decide_true, ite_true, ih]
        rw [show m - k = 0 by omega, show m - (k + 1) = 0 by omega, show max m k = k by omega, show max m (k + 1) = k + 1 by omega]
        simp
      · simp only [hk, decide_false, ih]
        obtain ⟨j, hj⟩ : ∃ j, m - k = j + 1 := ⟨m - k - 1, by omega⟩
        rw [hj, show m - (k + 1) = j by omega, show max m k = m by omega, show max m (k + 1) = m by omega]
        simp
  unfold kept
  rw [drop, key, drop, List.drop_drop]
  rw [show lo + (m - lo) = m by omega, show max m lo = m by omega]

theorem lookup_map_nodup {α : Type} {l : List (Body × Nat)} (f : Body → α) (hn : (l.map (·.2)).Nodup) {b : Body} {n : Nat} (h : (b, n) ∈ l) :
    (l.map fun bn => (bn.2, f bn.1)).lookup n = some (f b) := by
  induction l with
  | nil => simp at h
  | cons x l ih =>
    obtain ⟨xb, xn⟩ := x
    simp only [List.map_cons, List.nodup_cons] at hn
    simp only [List.map_cons, List.lookup_cons]
    rcases List.mem_cons.1 h with h' | h'
    · simp only [Prod.mk.injEq] at h'
      obtain ⟨rfl, rfl⟩ := h'
      simp
    · have : n ≠ xn := by
        intro e; subst e
        exact hn.1 (List.mem_map.2 ⟨(b, n), h', rfl⟩)
      simp only [beq_eq_false_iff_ne.2 this]
      exact ih hn.2 h'

theorem lookup_map_none {α : Type} {l : List (Body × Nat)} (f : Body → α) {n : Nat} (h : ∀ b, (b, n) ∉ l) :
    (l.map fun bn => (bn.2, f bn.1)).lookup n = none := by
  rw [List.lookup_eq_none_iff]
  intro p hp
  obtain ⟨⟨b, m⟩, hm, rfl⟩ := List.mem_map.1 hp
  simp only [ne_eq, bne_iff_ne]
  intro e; subst e
  exact h b hm

section
variable {c : Cfg} {db : Db} {chain : List Body} {lo : Nat}

theorem DbInv.latest (i : DbInv c db chain lo) : latestBlock db = if chain = [] then none else some (chain.length - 1) := by
  unfold latestBlock
  rw [i.headers, List.map_map]
  have : ((fun x : Nat × Nat => x.1) ∘ fun bn : Body × Nat => (bn.2, bn.1.hash)) = (·.2) := rfl
  rw [this, kept_numbers]
  split
  next h => simp [h]
  next h =>
    have hp := List.length_pos_iff.2 h
    have := i.lo_ok
    rw [List.max?_eq_some_iff]
    constructor
    · rw [List.mem_range'_1]; rcases this with h' | h' <;> omega
    · intro b hb; rw [List.mem_range'_1] at hb; omega

theorem DbInv.earliest (i : DbInv c db chain lo) : earliestBlock db = if chain = [] then none else some lo := by
  unfold earliestBlock
  rw [i.headers, List.map_map]
  have : ((fun x : Nat × Nat => x.1) ∘ fun bn : Body × Nat => (bn.2, bn.1.hash)) = (·.2) := rfl
  rw [this, kept_numbers]
  split
  next h => simp [h]
  next h =>
    have hp := List.length_pos_iff.2 h
    have := i.lo_ok
    rw [List.min?_eq_some_iff]
    constructor
    · rw [List.mem_range'_1]; rcases this with h' | h' <;> omega
    · intro b hb; rw [List.mem_range'_1] at hb; omega

theorem DbInv.header (i : DbInv c db chain lo) {n : Nat} {b : Body} (h1 : lo ≤ n) (h2 : chain[n]? = some b) : headerHash db n = some b.hash := by
  unfold headerHash
  rw [i.headers]
  exact lookup_map_nodup (·.hash) (kept_nodup ..) (mem_kept.2 ⟨h1, h2⟩)

theorem DbInv.events (i : DbInv c db chain lo) {n : Nat} {b : Body} (h1 : lo ≤ n) (h2 : chain[n]? = some b) : eventsForBlock db n = b.txs := by
  unfold eventsForBlock
  rw [i.txs]
  have hnd : (((kept chain lo).filter fun bn => !bn.1.txs.isEmpty).map (·.2)).Nodup :=
    (kept_nodup chain lo).sublist (List.filter_sublist.map _)
  have hm : (b, n) ∈ kept chain lo := mem_kept.2 ⟨h1, h2⟩
  by_cases hb : b.txs = []
  · rw [lookup_map_none (·.txs) (by
      intro b' hb'
      rw [List.mem_filter, mem_kept] at hb'
      obtain ⟨⟨-, h⟩, h'⟩ := hb'
      simp only at h
      rw [h2] at h
      simp only [Option.some.injEq] at h
      subst h
      simp [hb] at h')]
    simp [hb]
  · rw [lookup_map_nodup (·.txs) hnd (b := b) (List.mem_filter.2 ⟨hm, by simp [hb]⟩)]
    rfl

variable {s : Sys} {t : Track}

/-! ### the filters loaded for a query -/

theorem mem_cacheGetMany {cache : List Agg} {a b : Nat} {f : Agg} (h : f ∈ cacheGetMany c cache a b) :
    f ∈ cache ∧ f.fromBlock ≤ b ∧ a ≤ f.toBlock := by
  unfold cacheGetMany at h
  simp only [List.mem_filterMap, List.mem_range] at h
  obtain ⟨i, hi, hf⟩ := h
  have hp := len_pos c
  have h1 := List.find?_some hf
  have h2 := List.mem_of_find?_eq_some hf
  simp only [Bool.and_eq_true, beq_iff_eq] at h1
  obtain ⟨h1, h3⟩ := h1
  have ha := Nat.mod_lt a hp
  have hb := Nat.mod_lt b hp
  have hbl := Nat.mod_le b c.len
  have hal := Nat.mod_le a c.len
  have hi' := (Nat.lt_div_iff_mul_lt hp).1 hi
  refine ⟨h2, ?_, ?_⟩
  · rw [h1]
    rw [Nat.lt_div_iff_mul_lt hp] at hi
    -- the difference of the aligned bounds is a multiple of the range length
    have hA : a - a % c.len = a / c.len * c.len := by
      have := Nat.div_add_mod a c.len
      have := Nat.mul_comm c.len (a / c.len)
      omega
    have hB : b + c.len - b % c.len - 1 + 1 = (b / c.len + 1) * c.len := by
      have := Nat.div_add_mod b c.len
      have := Nat.mul_comm c.len (b / c.len)
      rw [Nat.add_mul, Nat.one_mul]
      omega
    rw [hA, hB] at hi
    rw [hA]
    have : (a / c.len + i) * c.len < (b / c.len + 1) * c.len := by
      rw [Nat.add_mul]; omega
    have := Nat.lt_of_mul_lt_mul_right this
    have h5 : (a / c.len + i) * c.len ≤ b / c.len * c.len := Nat.mul_le_mul_right _ (by omega)
    rw [Nat.add_mul] at h5
    have h6 := Nat.div_mul_le_self b c.len
    omega
  · have h7 : 0 ≤ i * c.len := Nat.zero_le _
    omega

theorem cacheGetMany_sorted (cache : List Agg) (a b : Nat) :
    (cacheGetMany c cache a b).Pairwise (fun f g => f.fromBlock < g.fromBlock) := by
  unfold cacheGetMany
  rw [List.pairwise_filterMap]
  refine List.Pairwise.imp ?_ (List.pairwise_lt_range)
  intro i j hij f hf g hg
  have h1 := List.find?_some hf
  have h2 := List.find?_some hg
  simp only [Bool.and_eq_true, beq_iff_eq] at h1 h2
  have hp := len_pos c
  have : i * c.len < j * c.len := Nat.mul_lt_mul_of_pos_right hij hp
  omega

theorem insertFilter_perm (f : Agg) (gs : List Agg) : (insertFilter f gs).Perm (f :: gs) := by
  induction gs with
  | nil => exact List.Perm.refl _
  | cons g gs ih =>
    unfold insertFilter
    split
    · exact List.Perm.refl _
    · exact (ih.cons g).trans (List.Perm.swap f g gs)

theorem sortFilters_perm (fs : List Agg) : (sortFilters fs).Perm fs := by
  induction fs with
  | nil => exact List.Perm.refl _
  | cons f fs ih => exact (insertFilter_perm f _).trans (ih.cons f)

theorem sortFilters_sorted (fs : List Agg) : (sortFilters fs).Pairwise (fun f g => filterLe f g = true) := by
  have ins : ∀ (f : Agg) (gs : List Agg), gs.Pairwise (fun f g => filterLe f g = true) → (insertFilter f gs).Pairwise (fun f g => filterLe f g = true) := by
    intro f gs
    induction gs with
    | nil => intro _; simp [insertFilter]
    | cons g gs ih =>
      intro h
      rw [List.pairwise_cons] at h
      unfold insertFilter
      simp only [filterLe, decide_eq_true_eq] at *
      split
      · rw [List.pairwise_cons, List.pairwise_cons]
        refine ⟨?_, h⟩
        intro x hx
        rcases List.mem_cons.1 hx with hx | hx
        · subst hx; assumption
        · have := h.1 x hx; omega
      · rw [List.pairwise_cons]
        refine ⟨?_, ih h.2⟩
        intro x hx
        rcases List.mem_cons.1 ((insertFilter_perm f gs).mem_iff.1 hx) with hx | hx
        · subst hx; omega
        · exact h.1 x hx
  induction fs with
  | nil => simp [sortFilters]
  | cons f fs ih => exact ins f _ ih

theorem mem_sortFilters {f : Agg} {fs : List Agg} : f ∈ sortFilters fs ↔ f ∈ fs := (sortFilters_perm fs).mem_iff

/-- The stored filters that overlap the range. -/
def overlap (db : Db) (start stop : Nat) (f : Agg) : Prop := f ∈ db.filters ∧ f.fromBlock ≤ stop ∧ start ≤ f.toBlock

theorem Inv.loaded (i : Inv c s t) {start stop : Nat} (hlo : t.lo ≤ start) :
    let fs := sortFilters (loadRows s.db (cacheGetMany c s.mem.cache start stop) start stop ++ cacheGetMany c s.mem.cache start stop)
    (∀ f, f ∈ fs ↔ overlap s.db start stop f) ∧ fs.Pairwise (fun f g => f.toBlock < g.fromBlock) := by
  intro fs
  have hcached : ∀ f ∈ cacheGetMany c s.mem.cache start stop, overlap s.db start stop f := by
    intro f hf
    obtain ⟨h1, h2, h3⟩ := mem_cacheGetMany hf
    exact ⟨(i.cache f h1).2.2.2 (by omega), h2, h3⟩
  have hinj : ∀ f ∈ s.db.filters, ∀ g ∈ s.db.filters, f.fromBlock = g.fromBlock → f = g := by
    intro f hf g hg h
    have hn := i.db.fNodup
    obtain ⟨x, hx⟩ := List.mem_iff_getElem?.1 hf
    obtain ⟨y, hy⟩ := List.mem_iff_getElem?.1 hg
    have hxl := (List.getElem?_eq_some_iff.1 hx).1
    have : x = y := by
      apply (List.getElem?_inj (l := s.db.filters.map (·.fromBlock)) (by simpa using hxl) hn).1
      simp [hx, hy, h]
    subst this
    rw [hx] at hy
    simpa using hy
  have hmem : ∀ f, f ∈ fs ↔ overlap s.db start stop f := by
    intro f
    show f ∈ sortFilters _ ↔ _
    rw [mem_sortFilters, List.mem_append]
    unfold loadRows
    rw [mem_sortFilters, List.mem_filter]
    simp only [Bool.and_eq_true, decide_eq_true_eq, Bool.not_eq_true', List.any_eq_false, beq_iff_eq]
    constructor
    · rintro (⟨h1, ⟨h2, h3⟩, -⟩ | h)
      · exact ⟨h1, h2, h3⟩
      · exact hcached f h
    · intro h
      by_cases hc : ∃ g ∈ cacheGetMany c s.mem.cache start stop, g.fromBlock = f.fromBlock
      · obtain ⟨g, hg, he⟩ := hc
        right
        have := hinj g (hcached g hg).1 f h.1 he
        exact this ▸ hg
      · left
        refine ⟨h.1, ⟨h.2.1, h.2.2⟩, fun g hg he => hc ⟨g, hg, he⟩⟩
  refine ⟨hmem, ?_⟩
  have hsorted : fs.Pairwise (fun f g => filterLe f g = true) := by
    exact sortFilters_sorted _
  have hnd : fs.Pairwise (fun f g => f.fromBlock ≠ g.fromBlock) := by
    refine List.Pairwise.perm ?_ (sortFilters_perm _).symm (fun {a b} h e => h e.symm)
    rw [List.pairwise_append]
    refine ⟨?_, (cacheGetMany_sorted _ _ _).imp (fun h => by omega), ?_⟩
    · unfold loadRows
      refine List.Pairwise.perm ?_ (sortFilters_perm _).symm (fun {a b} h e => h e.symm)
      apply List.Pairwise.filter
      have := i.db.fNodup
      rw [List.Nodup, List.pairwise_map] at this
      exact this
    · intro f hf g hg e
      unfold loadRows at hf
      rw [mem_sortFilters, List.mem_filter] at hf
      simp only [Bool.and_eq_true, decide_eq_true_eq, Bool.not_eq_true', List.any_eq_false, beq_iff_eq] at hf
      exact hf.2.2 g hg e.symm
  have hboth := List.pairwise_and_iff.2 ⟨hsorted, hnd⟩
  rw [List.pairwise_iff_forall_sublist] at hboth ⊢
  intro f g hfg
  obtain ⟨h1, h2⟩ := hboth hfg
  simp only [filterLe, decide_eq_true_eq] at h1
  have hf := i.db.fOk f ((hmem f).1 (hfg.subset (by simp))).1
  have hg := i.db.fOk g ((hmem g).1 (hfg.subset (by simp))).1
  have hp := len_pos c
  have e1 := Nat.div_add_mod f.fromBlock c.len
  have e2 := Nat.div_add_mod g.fromBlock c.len
  rw [hf.2.1] at e1
  rw [hg.2.1] at e2
  have hlt : f.fromBlock / c.len < g.fromBlock / c.len := by
    apply Nat.lt_of_mul_lt_mul_left (a := c.len)
    omega
  have := Nat.mul_le_mul_left c.len (Nat.succ_le_of_lt hlt)
  rw [Nat.succ_eq_add_one, Nat.mul_add, Nat.mul_one] at this
  have := hf.1.ok.to
  omega

theorem Inv.view (i : Inv c s t) : View c s.db s.mem t.chain t.lo := by
  refine ⟨i.db.lo_ok, fun n b => i.db.header, fun n b => i.db.events, i.db.latest, ?_⟩
  intro start stop hlo hstop
  obtain ⟨hmem, hsort⟩ := i.loaded (start := start) (stop := stop) hlo
  have hp := len_pos c
  unfold loadFilters
  simp only
  generalize sortFilters (loadRows s.db (cacheGetMany c s.mem.cache start stop) start stop ++ cacheGetMany c s.mem.cache start stop) = fs at *
  obtain ⟨hrc, hrf⟩ := i.run
  have hrto := hrc.ok.to
  have hdm := Nat.div_add_mod t.chain.length c.len
  have hml := Nat.mod_lt t.chain.length hp
  rw [Nat.mul_comm] at hdm
  -- every complete range that overlaps is loaded
  have hcomplete : ∀ n, start ≤ n → n ≤ stop → n < s.mem.running.fromBlock → ∃ f ∈ fs, f.fromBlock ≤ n ∧ n ≤ f.toBlock := by
    intro n h1 h2 h3
    have e := Nat.div_add_mod n c.len
    have el := Nat.mod_lt n hp
    rw [Nat.mul_comm] at e
    have hlt : n / c.len < t.chain.length / c.len := by
      apply Nat.lt_of_mul_lt_mul_right (a := c.len)
      omega
    have := Nat.mul_le_mul_right c.len (Nat.succ_le_of_lt hlt)
    rw [Nat.succ_eq_add_one, Nat.add_mul, Nat.one_mul] at this
    obtain ⟨f, hf, hff⟩ := i.db.fAll (n / c.len) (by omega) (by omega)
    have := (i.db.fOk f hf).1.ok.to
    exact ⟨f, (hmem f).2 ⟨hf, by omega, by omega⟩, by omega, by omega⟩
  have hfs : ∀ f ∈ fs, f.toBlock < s.mem.running.fromBlock := by
    intro f hf
    have h := i.db.fOk f ((hmem f).1 hf).1
    have e := Nat.div_add_mod f.fromBlock c.len
    rw [h.2.1, Nat.mul_comm] at e
    have := h.1.ok.to
    have hlt : f.fromBlock / c.len < t.chain.length / c.len := by
      apply Nat.lt_of_not_le
      intro hle
      have := Nat.mul_le_mul_right c.len hle
      omega
    have := Nat.mul_le_mul_right c.len (Nat.succ_le_of_lt hlt)
    rw [Nat.succ_eq_add_one, Nat.add_mul, Nat.one_mul] at this
    omega
  have hlastmax : ∀ last, fs.getLast? = some last → ∀ f ∈ fs, f = last ∨ f.toBlock < last.fromBlock := by
    intro last hl f hf
    have hne : fs ≠ [] := by intro h; subst h; simp at hf
    have hd := List.dropLast_concat_getLast hne
    rw [List.getLast?_eq_some_getLast hne, Option.some.injEq] at hl
    rw [hl] at hd
    rw [← hd, List.pairwise_append] at hsort
    rw [← hd] at hf
    rcases List.mem_append.1 hf with h | h
    · exact .inr (hsort.2.2 f h last (by simp))
    · exact .inl (by simpa using h)
  have hchain : stop ≤ s.mem.running.toBlock := by omega
  cases hl : fs.getLast? with
  | none =>
    have hnil := List.getLast?_eq_none_iff.1 hl
    subst hnil
    simp only [includeRunning, ite_true, List.nil_append]
    refine ⟨?_, ?_, ?_, s.mem.running, by simp, hchain⟩
    · intro f hf
      simp only [List.mem_singleton] at hf
      subst hf
      exact hrc
    · intro n h1 h2
      by_cases hn : n < s.mem.running.fromBlock
      · obtain ⟨f, hf, -⟩ := hcomplete n h1 h2 hn
        simp at hf
      · exact ⟨_, List.mem_singleton.2 rfl, by omega, by omega⟩
    · simp
  | some last =>
    have hlm : last ∈ fs := List.mem_of_getLast? hl
    have hlov := (hmem last).1 hlm
    have hlok := i.db.fOk last hlov.1
    have hlstart : start ≤ last.toBlock := hlov.2.2
    have hlto := hlok.1.ok.to
    by_cases hinc : includeRunning s.mem.running stop (some last) = true
    · rw [if_pos hinc]
      simp only [includeRunning, Bool.and_eq_true, beq_iff_eq, decide_eq_true_eq] at hinc
      refine ⟨?_, ?_, ?_, s.mem.running, by simp, hchain⟩
      · intro f hf
        rcases List.mem_append.1 hf with hf | hf
        · exact (i.db.fOk f ((hmem f).1 hf).1).1
        · simp only [List.mem_singleton] at hf
          subst hf
          exact hrc
      · intro n h1 h2
        by_cases hn : n < s.mem.running.fromBlock
        · obtain ⟨f, hf, hh⟩ := hcomplete n h1 h2 hn
          exact ⟨f, List.mem_append_left _ hf, hh⟩
        · exact ⟨_, List.mem_append_right _ (List.mem_singleton.2 rfl), by omega, by omega⟩
      · rw [List.pairwise_append]
        refine ⟨hsort, by simp, ?_⟩
        intro f hf g hg
        simp only [List.mem_singleton] at hg
        subst hg
        exact hfs f hf
    · rw [if_neg hinc]
      simp only [includeRunning, Bool.and_eq_true, beq_iff_eq, decide_eq_true_eq] at hinc
      -- the running filter is not needed
      have hnot : stop ≤ last.toBlock := by
        apply Classical.byContradiction
        intro hgt
        have hne : last.toBlock + 1 ≠ s.mem.running.fromBlock := fun h => hinc ⟨h, by omega⟩
        have hlr := hfs last hlm
        obtain ⟨f, hf, h1, h2⟩ := hcomplete (last.toBlock + 1) (by omega) (by omega) (by omega)
        rcases hlastmax last hl f hf with h | h
        · subst h; omega
        · omega
      refine ⟨fun f hf => (i.db.fOk f ((hmem f).1 hf).1).1, ?_, hsort, last, hl, hnot⟩
      intro n h1 h2
      have := hfs last hlm
      exact hcomplete n h1 h2 (by omega)

end

end Verif.Events
