import Verif.Gas.L1Spec
/-! # C43: L1 gas price samples -/
namespace Verif.Gas

/-! ## The buffer -/

theorem linked_nil : Linked [] := by
  intro i a b h
  simp at h

theorem linked_single (a : Sample) : Linked [a] := by
  intro i x y _ h
  simp at h

theorem Linked.suffix {l l' : List Sample} (h : Linked l) (hs : l' <:+ l) : Linked l' := by
  obtain ⟨t, rfl⟩ := hs
  intro i a b ha hb
  refine h (t.length + i) a b ?_ ?_
  · rw [List.getElem?_append_right (by omega)]; simpa using ha
  · rw [List.getElem?_append_right (by omega), show t.length + i + 1 - t.length = i + 1 by omega]; exact hb

/-- Two linked sequences that overlap. -/
theorem Linked.glue {t l ds : List Sample} (h1 : Linked (t ++ l)) (hl : l ≠ []) (h2 : Linked (l ++ ds)) : Linked (t ++ l ++ ds) := by
  intro i a b ha hb
  have hlen : 1 ≤ l.length := by
    cases l with
    | nil => exact absurd rfl hl
    | cons _ _ => simp
  by_cases hi : i + 1 < (t ++ l).length
  · rw [List.getElem?_append_left (by omega)] at ha hb
    exact h1 i a b ha hb
  · simp only [List.length_append] at hi
    rw [List.append_assoc, List.getElem?_append_right (by omega)] at ha hb
    rw [show i + 1 - t.length = i - t.length + 1 by omega] at hb
    exact h2 _ a b ha hb

theorem Linked.push {l : List Sample} {last d : Sample} (h : Linked l) (hl : l.getLast? = some last) (h1 : d.number = last.number + 1)
    (h2 : d.parent = last.hash) : Linked (l ++ [d]) := by
  have hd : Linked ([last] ++ [d]) := by
    intro i a b ha hb
    match i with
    | 0 => simp at ha hb; subst ha; subst hb; exact ⟨h1, h2⟩
    | i + 1 => simp at hb
  obtain ⟨t, rfl⟩ : ∃ t, l = t ++ [last] := List.getLast?_eq_some_iff.1 hl
  exact h.glue (by simp) hd

theorem pushSample_spec (cfg : L1Config) (buf : List Sample) (d : Sample) :
    pushSample cfg buf d <:+ buf ++ [d] ∧ (buf.length ≤ max 1 cfg.storageLimit → (pushSample cfg buf d).length ≤ max 1 cfg.storageLimit) ∧
      (pushSample cfg buf d).getLast? = some d := by
  unfold pushSample
  split
  · refine ⟨?_, ?_, ?_⟩
    · cases buf with
      | nil => simp
      | cons a l => exact ⟨[a], by simp⟩
    · intro h
      cases buf with
      | nil => simp; omega
      | cons a l => simp at *; omega
    · rw [List.getLast?_concat]
  · refine ⟨List.suffix_refl _, fun _ => by simp; omega, by rw [List.getLast?_concat]⟩

/-- A sample is taken exactly if there is none before it or it continues the newest; otherwise the buffer is left as it is. -/
theorem C43_add {cfg : L1Config} {buf buf' : List Sample} {d : Sample} {e : Option AddError} (h : addSample cfg buf d = some (buf', e)) :
    (e = none ↔ ∀ last, buf.getLast? = some last → d.number = last.number + 1 ∧ d.parent = last.hash) ∧
    (e ≠ none → buf' = buf) ∧ (e = none → buf' <:+ buf ++ [d] ∧ buf'.getLast? = some d) := by
  unfold addSample at h
  cases hl : buf.getLast? with
  | none =>
    simp only [hl, Option.some_inj, Prod.mk.injEq] at h
    obtain ⟨rfl, rfl⟩ := h
    exact ⟨⟨fun _ _ h => (by cases h), fun _ => rfl⟩, fun h => absurd rfl h,
      fun _ => ⟨(pushSample_spec cfg buf d).1, (pushSample_spec cfg buf d).2.2⟩⟩
  | some last =>
    simp only [hl] at h
    split at h
    · cases h
    split at h
    · rename_i hn
      cases h
      exact ⟨⟨nofun, fun hh => absurd (hh last rfl).1 hn⟩, fun _ => rfl, nofun⟩
    split at h
    · rename_i hn
      cases h
      exact ⟨⟨nofun, fun hh => absurd (hh last rfl).2 hn⟩, fun _ => rfl, nofun⟩
    · rename_i h1 h2
      cases h
      refine ⟨⟨fun _ l hl' => ?_, fun _ => rfl⟩, fun h => absurd rfl h,
        fun _ => ⟨(pushSample_spec cfg buf d).1, (pushSample_spec cfg buf d).2.2⟩⟩
      cases hl'
      exact ⟨Classical.not_not.1 h1, Classical.not_not.1 h2⟩

/-- Good buffers. -/
def Good (cfg : L1Config) (buf : List Sample) : Prop := Linked buf ∧ buf.length ≤ max 1 cfg.storageLimit

theorem addSample_size {cfg : L1Config} {buf buf' : List Sample} {d : Sample} {e : Option AddError}
    (h : addSample cfg buf d = some (buf', e)) (hb : buf.length ≤ max 1 cfg.storageLimit) : buf'.length ≤ max 1 cfg.storageLimit := by
  unfold addSample at h
  split at h
  · cases h; exact (pushSample_spec cfg buf d).2.1 hb
  split at h
  · cases h
  split at h
  · cases h; exact hb
  split at h
  · cases h; exact hb
  · cases h; exact (pushSample_spec cfg buf d).2.1 hb

theorem addSample_good {cfg : L1Config} {buf buf' : List Sample} {d : Sample} {e : Option AddError} (hb : Good cfg buf)
    (h : addSample cfg buf d = some (buf', e)) : Good cfg buf' := by
  obtain ⟨h1, h2, h3⟩ := C43_add h
  refine ⟨?_, addSample_size h hb.2⟩
  by_cases he : e = none
  · refine Linked.suffix ?_ (h3 he).1
    cases hl : buf.getLast? with
    | none => rw [List.getLast?_eq_none_iff.1 hl]; exact linked_single d
    | some last =>
      obtain ⟨a, b⟩ := h1.1 he last hl
      exact hb.1.push hl a b
  · rw [h2 he]; exact hb.1

theorem addSamples_good {cfg : L1Config} {ds : List Sample} : ∀ {buf buf' : List Sample} {e : Option AddError}, Good cfg buf →
    addSamples cfg buf ds = some (buf', e) → Good cfg buf' := by
  induction ds with
  | nil => intro buf buf' e hb h; cases h; exact hb
  | cons d ds ih =>
    intro buf buf' e hb h
    unfold addSamples at h
    split at h
    · cases h
    · rename_i h'; cases h; exact addSample_good hb h'
    · rename_i h'; exact ih (addSample_good hb h') h

theorem processBlock_good {cfg : L1Config} {maxGap : Nat} {fetch : Nat → Nat → Option (List Sample)} {buf buf' : List Sample} {d : Sample}
    {e : Option ProcError} (hb : Good cfg buf) (h : processBlock cfg maxGap fetch buf d = some (buf', e)) : Good cfg buf' := by
  unfold processBlock at h
  split at h
  · cases h
  · rename_i h'; cases h; exact addSample_good hb h'
  · rename_i h'; cases h; exact addSample_good hb h'
  · rename_i h'
    have hg := addSample_good hb h'
    split at h
    · cases h; exact hg
    split at h
    · cases h; exact hg
    split at h
    · cases h; exact hg
    split at h
    · cases h
    · rename_i h''; cases h; exact addSamples_good hg h''
    · rename_i h''
      have hg' := addSamples_good hg h''
      simp only [Option.map_eq_some_iff] at h
      obtain ⟨⟨b, e'⟩, h1, h2⟩ := h
      cases h2
      exact addSample_good hg' h1

theorem Reachable.good {cfg : L1Config} {maxGap : Nat} {buf : List Sample} (h : Reachable cfg maxGap buf) : Good cfg buf := by
  induction h with
  | empty => exact ⟨linked_nil, by simp⟩
  | sample _ h ih => exact addSample_good ih h
  | samples _ h ih => exact addSamples_good ih h
  | clear _ _ => exact ⟨linked_nil, by simp⟩
  | block _ h ih => exact processBlock_good ih h

/-- Whatever is added, and whatever the Ethereum client answers, the samples are consecutive linked blocks. -/
theorem C43_linked {cfg : L1Config} {maxGap : Nat} {buf : List Sample} (h : Reachable cfg maxGap buf) : Linked buf := h.good.1

/-- There are never more samples than configured, if at least one is. -/
theorem C43_size {cfg : L1Config} {maxGap : Nat} {buf : List Sample} (h : Reachable cfg maxGap buf) (hl : 1 ≤ cfg.storageLimit) :
    buf.length ≤ cfg.storageLimit := by
  have := h.good.2
  omega

theorem addSamples_all {cfg : L1Config} {ds : List Sample} : ∀ {buf buf' : List Sample}, Linked buf →
    addSamples cfg buf ds = some (buf', none) → buf' <:+ buf ++ ds ∧ (buf ≠ [] → Linked (buf ++ ds) ∧ buf' ≠ []) := by
  induction ds with
  | nil => intro buf buf' hb h; cases h; exact ⟨by simp, fun h => ⟨by simpa using hb, h⟩⟩
  | cons d ds ih =>
    intro buf buf' hb h
    unfold addSamples at h
    split at h
    · cases h
    · cases h
    · rename_i buf1 h'
      obtain ⟨h1, _, h3⟩ := C43_add h'
      obtain ⟨s1, s2⟩ := h3 rfl
      have hl : Linked (buf ++ [d]) := by
        cases hl : buf.getLast? with
        | none => rw [List.getLast?_eq_none_iff.1 hl]; exact linked_single d
        | some last => obtain ⟨a, b⟩ := h1.1 rfl last hl; exact hb.push hl a b
      have hne : buf1 ≠ [] := by intro h; rw [h] at s2; cases s2
      obtain ⟨t1, t2⟩ := ih (hl.suffix s1) h
      obtain ⟨pre, hp⟩ := s1
      refine ⟨t1.trans ⟨pre, by rw [← List.append_assoc, hp]; simp⟩, fun _ => ⟨?_, (t2 hne).2⟩⟩
      have hl2 := (t2 hne).1
      rw [← hp] at hl
      have := hl.glue hne hl2
      rw [hp] at this
      simpa using this

/-- A block that is accepted continues the samples without a gap: the samples, the fetched ones and the block are linked, and the
newest of them are kept. -/
theorem C43_block {cfg : L1Config} {maxGap : Nat} {fetch : Nat → Nat → Option (List Sample)} {buf buf' : List Sample} {d : Sample}
    (hb : Linked buf) (h : processBlock cfg maxGap fetch buf d = some (buf', none)) :
    ∃ mid, Linked (buf ++ mid ++ [d]) ∧ buf' <:+ buf ++ mid ++ [d] ∧ buf'.getLast? = some d ∧ mid.length ≤ maxGap ∧
      (mid ≠ [] → ∃ last, buf.getLast? = some last ∧ fetch (last.number + 1) (d.number - 1) = some mid) := by
  have one : ∀ {buf buf' : List Sample}, Linked buf → addSample cfg buf d = some (buf', none) →
      Linked (buf ++ [d]) ∧ buf' <:+ buf ++ [d] ∧ buf'.getLast? = some d := by
    intro buf buf' hb h
    obtain ⟨h1, _, h3⟩ := C43_add h
    refine ⟨?_, h3 rfl⟩
    cases hl : buf.getLast? with
    | none => rw [List.getLast?_eq_none_iff.1 hl]; exact linked_single d
    | some last => obtain ⟨a, b⟩ := h1.1 rfl last hl; exact hb.push hl a b
  unfold processBlock at h
  split at h
  · cases h
  · rename_i h'
    cases h
    obtain ⟨a, b, c⟩ := one hb h'
    exact ⟨[], by simpa using a, by simpa using b, c, by simp, fun h => absurd rfl h⟩
  · cases h
  · rename_i buf1 expected actual h'
    have hgap : buf1 = buf ∧ ∃ last, buf.getLast? = some last ∧ expected = last.number + 1 ∧ actual = d.number := by
      have := h'
      unfold addSample at this
      split at this
      · cases this
      · rename_i last hl
        split at this
        · cases this
        split at this
        · cases this; exact ⟨rfl, last, hl, rfl, rfl⟩
        split at this <;> cases this
    obtain ⟨rfl, last, hl, rfl, rfl⟩ := hgap
    have hne : buf1 ≠ [] := by intro h; rw [h] at hl; cases hl
    split at h
    · cases h
    split at h
    · cases h
    rename_i hsize
    split at h
    · cases h
    rename_i mid hf
    split at h
    · cases h
    · cases h
    · rename_i buf2 h''
      obtain ⟨s1, s2⟩ := addSamples_all hb h''
      obtain ⟨l1, n1⟩ := s2 hne
      simp only [Option.map_eq_some_iff] at h
      obtain ⟨⟨b, e'⟩, h1, h2⟩ := h
      have e1 : b = buf' := congrArg Prod.fst h2
      have e2 : e' = none := by
        have : e'.map ProcError.add = none := congrArg Prod.snd h2
        cases e' with
        | none => rfl
        | some _ => cases this
      subst e1; subst e2
      obtain ⟨a, b', c⟩ := one (l1.suffix s1) h1
      obtain ⟨t, ht⟩ := s1
      have hlink : Linked (buf1 ++ mid ++ [d]) := by
        rw [← ht] at l1
        have := l1.glue n1 a
        rwa [ht] at this
      refine ⟨mid, hlink, b'.trans ⟨t, by rw [← List.append_assoc, ht]⟩, c, ?_, fun _ => ⟨last, hl, hf⟩⟩
      -- the numbers of the fetched samples are consecutive
      have hnum : ∀ i x, (mid ++ [d])[i]? = some x → x.number = last.number + 1 + i := by
        obtain ⟨t', ht'⟩ : ∃ t, buf1 = t ++ [last] := List.getLast?_eq_some_iff.1 hl
        have hlink' : Linked ([last] ++ (mid ++ [d])) := hlink.suffix ⟨t', by rw [ht']; simp⟩
        intro i
        induction i with
        | zero => intro x hx; exact (hlink' 0 last x rfl (by simpa using hx)).1
        | succ i ih =>
          intro x hx
          cases hy : (mid ++ [d])[i]? with
          | none =>
            have := List.getElem?_eq_none_iff.1 hy
            rw [List.getElem?_eq_none (by omega)] at hx; cases hx
          | some y =>
            have h1 := ih y hy
            have h2 := (hlink' (i + 1) y x (by simpa using hy) (by simpa using hx)).1
            omega
      have := hnum mid.length d (by simp)
      omega

/-- Violation: with a limit of zero one sample is kept. -/
theorem C43_limit_violated : ∃ cfg buf, cfg.storageLimit = 0 ∧ Reachable cfg 0 buf ∧ buf.length = 1 :=
  ⟨⟨0, 1, 0, 0⟩, [⟨1, 1, 0, 1, 1, 1⟩], rfl, .sample (d := ⟨1, 1, 0, 1, 1, 1⟩) (e := none) .empty (by decide), rfl⟩

/-! ## Averages -/

theorem lastIndex_some {buf : List Sample} {target i : Nat} (h : lastIndex buf target = some i) :
    ∃ pre d post, buf = pre ++ d :: post ∧ pre.length = i ∧ d.timestamp ≤ target ∧ ∀ x ∈ post, target < x.timestamp := by
  unfold lastIndex at h
  rw [List.find?_eq_some_iff_append] at h
  obtain ⟨hp, as, bs, he, hall⟩ := h
  rw [Option.any_eq_true] at hp
  obtain ⟨d, hd, ht⟩ := hp
  have hi : i < buf.length := (List.getElem?_eq_some_iff.1 hd).1
  refine ⟨buf.take i, d, buf.drop (i + 1), ?_, by simp; omega, by simpa using ht, ?_⟩
  · obtain ⟨h1, h2⟩ := List.getElem?_eq_some_iff.1 hd
    rw [← h2, List.getElem_cons_drop, List.take_append_drop]
  · intro x hx
    obtain ⟨j, hj, hjx⟩ := List.mem_iff_getElem.1 hx
    rw [List.getElem_drop] at hjx
    have hj' : i + 1 + j < buf.length := by simp at hj; omega
    -- the index is among those that were tried before
    have hmem : i + 1 + j ∈ as := by
      have he' : List.range buf.length = bs.reverse ++ i :: as.reverse := by
        have := congrArg List.reverse he
        rw [List.reverse_reverse] at this
        rw [this]; simp
      have hm : i + 1 + j ∈ List.range buf.length := List.mem_range.2 hj'
      rw [he'] at hm
      have hsort : (List.range buf.length).Pairwise (· < ·) := List.pairwise_lt_range
      rw [he', List.pairwise_append] at hsort
      simp only [List.mem_append, List.mem_reverse, List.mem_cons] at hm
      rcases hm with hm | hm | hm
      · have := hsort.2.2 _ (by simpa using hm) i (by simp); omega
      · omega
      · exact hm
    have := hall _ hmem
    rw [List.getElem?_eq_getElem hj', hjx] at this
    simpa using this

theorem lastIndex_none {buf : List Sample} {target : Nat} (h : lastIndex buf target = none) : ∀ x ∈ buf, target < x.timestamp := by
  intro x hx
  unfold lastIndex at h
  rw [List.find?_eq_none] at h
  obtain ⟨j, hj, hjx⟩ := List.mem_iff_getElem.1 hx
  have := h j (by simpa using hj)
  rw [List.getElem?_eq_getElem hj, hjx] at this
  simpa using this

theorem satSum_eq (l : List Nat) : satSum l = min l.sum (U128 - 1) := by
  unfold satSum
  have : ∀ acc, l.foldl satAdd128 (min acc (U128 - 1)) = min (acc + l.sum) (U128 - 1) := by
    induction l with
    | nil => intro acc; simp
    | cons a l ih =>
      intro acc
      rw [List.foldl_cons, List.sum_cons, ← Nat.add_assoc, ← ih]
      congr 1
      unfold satAdd128
      omega
  have h0 := this 0
  rwa [Nat.zero_add, Nat.zero_min] at h0

/-- The average is over the last samples, at most the configured number, up to the newest one that is old enough; all of these if
there are fewer. It is the floor of the mean, for sums that fit into 128 bits. -/
theorem C43_average {cfg : L1Config} {buf : List Sample} {time base blob : Nat}
    (h : averagePrices cfg buf time = some (.ok (base, blob))) :
    ∃ pre used post d, buf = pre ++ used ++ post ∧ used.getLast? = some d ∧ d.timestamp ≤ time - cfg.lagMargin ∧
      (∀ x ∈ post, time - cfg.lagMargin < x.timestamp) ∧ used.length ≤ cfg.blocksForMean ∧
      (used.length = cfg.blocksForMean ∨ pre = []) ∧
      base = min (used.map Sample.baseFee).sum (U128 - 1) / used.length ∧
      blob = min (used.map Sample.blobFee).sum (U128 - 1) / used.length := by
  unfold averagePrices at h
  split at h
  · cases h
  split at h
  · cases h
  split at h
  · cases h
  split at h
  · cases h
  rename_i idx hi
  simp only at h
  split at h
  · cases h
  rename_i hcount
  obtain ⟨pre, d, post, rfl, hlen, hd, hpost⟩ := lastIndex_some hi
  simp only [satSum_eq, Option.some_inj, Except.ok.injEq, Prod.mk.injEq] at h
  obtain ⟨rfl, rfl⟩ := h
  have hsplit : ∃ p u, pre ++ [d] = p ++ u ∧ p.length = idx + 1 - cfg.blocksForMean ∧ u.length = idx + 1 - (idx + 1 - cfg.blocksForMean) :=
    ⟨(pre ++ [d]).take (idx + 1 - cfg.blocksForMean), (pre ++ [d]).drop (idx + 1 - cfg.blocksForMean),
      (List.take_append_drop _ _).symm, by simp; omega, by simp; omega⟩
  obtain ⟨p, u, hpu, hp, hu⟩ := hsplit
  have hbuf : pre ++ d :: post = p ++ u ++ post := by rw [← hpu]; simp
  have hused : ((pre ++ d :: post).drop (idx + 1 - cfg.blocksForMean)).take (idx + 1 - (idx + 1 - cfg.blocksForMean)) = u := by
    rw [hbuf, List.append_assoc, ← hp, List.drop_left, hp, ← hu, List.take_left]
  rw [hused]
  have hulast : u.getLast? = some d := by
    have hne : u ≠ [] := by intro h; rw [h] at hu; exact hcount hu.symm
    have : (p ++ u).getLast? = some d := by rw [← hpu, List.getLast?_concat]
    rw [List.getLast?_append] at this
    cases hu' : u.getLast? with
    | none => exact absurd (List.getLast?_eq_none_iff.1 hu') hne
    | some z => rw [hu'] at this; simpa using this
  refine ⟨p, u, post, d, hbuf, hulast, hd, hpost, by omega, ?_, ?_, ?_⟩
  · by_cases hc : cfg.blocksForMean ≤ idx + 1
    · left; omega
    · right; exact List.length_eq_zero_iff.1 (by omega)
  · rw [hu]
  · rw [hu]

theorem sum_lower {l : List Nat} {lo : Nat} (h : ∀ x ∈ l, lo ≤ x) : l.length * lo ≤ l.sum := by
  induction l with
  | nil => simp
  | cons a l ih =>
    have := ih (fun x hx => h x (by simp [hx]))
    have := h a (by simp)
    rw [List.sum_cons, List.length_cons, Nat.succ_mul]
    omega

theorem sum_upper {l : List Nat} {hi : Nat} (h : ∀ x ∈ l, x ≤ hi) : l.sum ≤ l.length * hi := by
  induction l with
  | nil => simp
  | cons a l ih =>
    have := ih (fun x hx => h x (by simp [hx]))
    have := h a (by simp)
    rw [List.sum_cons, List.length_cons, Nat.succ_mul]
    omega

/-- The averages are never above the greatest sample, and not below the smallest one as long as the sum fits into 128 bits. Missing for
the full property: sums that do not. -/
theorem C43_in_range_partial {cfg : L1Config} {buf : List Sample} {time base blob : Nat}
    (h : averagePrices cfg buf time = some (.ok (base, blob))) :
    (∀ hi, (∀ x ∈ buf, x.baseFee ≤ hi) → base ≤ hi) ∧
    (∀ lo, (∀ x ∈ buf, lo ≤ x.baseFee) → (buf.map Sample.baseFee).sum < U128 → lo ≤ base) ∧
    (∀ hi, (∀ x ∈ buf, x.blobFee ≤ hi) → blob ≤ hi) ∧
    (∀ lo, (∀ x ∈ buf, lo ≤ x.blobFee) → (buf.map Sample.blobFee).sum < U128 → lo ≤ blob) := by
  obtain ⟨pre, used, post, d, rfl, hl, _, _, _, _, rfl, rfl⟩ := C43_average h
  have hpos : 0 < used.length := by
    cases used with
    | nil => cases hl
    | cons _ _ => simp
  have upper : ∀ (f : Sample → Nat) hi, (∀ x ∈ pre ++ used ++ post, f x ≤ hi) →
      min (used.map f).sum (U128 - 1) / used.length ≤ hi := by
    intro f hi hh
    have := sum_upper (l := used.map f) (hi := hi) (by simpa using fun x hx => hh x (by simp [hx]))
    rw [List.length_map] at this
    refine Nat.le_trans (Nat.div_le_div_right (Nat.min_le_left _ _)) ?_
    exact Nat.div_le_of_le_mul this
  have lower : ∀ (f : Sample → Nat) lo, (∀ x ∈ pre ++ used ++ post, lo ≤ f x) → ((pre ++ used ++ post).map f).sum < U128 →
      lo ≤ min (used.map f).sum (U128 - 1) / used.length := by
    intro f lo hh hs
    have h1 := sum_lower (l := used.map f) (lo := lo) (by simpa using fun x hx => hh x (by simp [hx]))
    rw [List.length_map] at h1
    simp only [List.map_append, List.sum_append] at hs
    rw [Nat.min_eq_left (by omega), Nat.le_div_iff_mul_le hpos, Nat.mul_comm]
    exact h1
  exact ⟨upper _, lower _, upper _, lower _⟩

/-- Violation: two samples with the greatest fee have half of it as their average, because the sum saturates. -/
theorem C43_saturation_violated : ∃ cfg buf base blob, Reachable cfg 0 buf ∧ averagePrices cfg buf 2 = some (.ok (base, blob)) ∧
    ∀ x ∈ buf, base < x.baseFee := by
  refine ⟨⟨2, 2, 0, 10⟩, [⟨1, 1, 0, 1, U128 - 1, 0⟩, ⟨2, 2, 1, 2, U128 - 1, 0⟩], (U128 - 1) / 2, 0, ?_, by rfl, by decide⟩
  exact .samples (ds := [⟨1, 1, 0, 1, U128 - 1, 0⟩, ⟨2, 2, 1, 2, U128 - 1, 0⟩]) (e := none) .empty (by decide)

/-- When no average is returned: no sample is old enough, the newest is too old, or no samples are to be used. -/
theorem C43_no_average {cfg : L1Config} {buf : List Sample} {time : Nat} {e : AvgError}
    (h : averagePrices cfg buf time = some (.error e)) :
    (e = .staleData ∧ ∃ latest, buf.getLast? = some latest ∧ latest.timestamp + cfg.maxTimeGap < time) ∨
    (e = .noDataAvailable ∧ ((∀ x ∈ buf, time - cfg.lagMargin < x.timestamp) ∨ cfg.blocksForMean = 0)) := by
  unfold averagePrices at h
  split at h
  · rename_i hl
    cases h
    rw [List.getLast?_eq_none_iff.1 hl]
    exact .inr ⟨rfl, .inl (by simp)⟩
  rename_i latest hl
  split at h
  · cases h
  split at h
  · cases h; exact .inl ⟨rfl, latest, hl, by assumption⟩
  split at h
  · rename_i hi; cases h; exact .inr ⟨rfl, .inl (lastIndex_none hi)⟩
  simp only at h
  split at h
  · cases h; exact .inr ⟨rfl, .inr (by omega)⟩
  · cases h

/-- The computation panics exactly if the time of the newest sample plus the greatest gap does not fit into 64 bits. -/
theorem C43_average_panics_iff {cfg : L1Config} {buf : List Sample} {time : Nat} :
    averagePrices cfg buf time = none ↔ ∃ latest, buf.getLast? = some latest ∧ U64 ≤ latest.timestamp + cfg.maxTimeGap := by
  unfold averagePrices
  cases hl : buf.getLast? with
  | none => simp
  | some latest =>
    simp only
    split
    · rename_i ho; exact ⟨fun _ => ⟨latest, rfl, ho⟩, fun _ => rfl⟩
    · rename_i ho
      constructor
      · intro h
        split at h
        · cases h
        split at h
        · cases h
        split at h <;> cases h
      · rintro ⟨l, hl', ho'⟩
        cases hl'; exact absurd ho' ho

/-! ## Validation -/

/-- Validation accepts exactly the fees whose deviation from the averages does not exceed the tolerance, and rejects none when there is
no average. -/
theorem C43_validate {cfg : L1Config} {exceeds : Nat → Nat → Bool} {buf : List Sample} {time base blob : Nat} {r : L1Result}
    (h : validateL1 cfg exceeds buf time base blob = some r) :
    (r = .valid ↔ ∃ a b, averagePrices cfg buf time = some (.ok (a, b)) ∧ exceeds base a = false ∧ exceeds blob b = false) ∧
    (r = .insufficientData ↔ ∃ e, averagePrices cfg buf time = some (.error e)) := by
  unfold validateL1 at h
  split at h
  · rename_i hlen
    rw [Option.map_eq_some_iff] at h
    obtain ⟨x, hx, rfl⟩ := h
    rw [hx]
    cases x with
    | error e => simp
    | ok avg =>
      obtain ⟨a, b⟩ := avg
      have e : ∀ a' b', (some (Except.ok (a, b)) : Option (Except AvgError (Nat × Nat))) = some (.ok (a', b')) ↔ a = a' ∧ b = b' := by
        simp
      unfold compareFees
      cases h1 : exceeds base a <;> cases h2 : exceeds blob b <;> simp only [e] <;> grind
  · rename_i hlen
    have : buf = [] := List.length_eq_zero_iff.1 (by omega)
    subst this
    cases h
    simp [averagePrices]

/-- The same in the other currency: the averages are converted by the oracle, and a missing rate rejects nothing. -/
theorem C43_validate_fri {cfg : L1Config} {exceeds : Nat → Nat → Bool} {oracle : Nat → Nat → Option Nat} {buf : List Sample}
    {time base blob : Nat} {r : L1Result} (h : validateFri cfg exceeds oracle buf time base blob = some r) :
    (r = .valid ↔ ∃ a b x y, averagePrices cfg buf time = some (.ok (a, b)) ∧ oracle a time = some x ∧ oracle b time = some y ∧
      exceeds base x = false ∧ exceeds blob y = false) ∧
    (r = .insufficientData ↔ (∃ e, averagePrices cfg buf time = some (.error e)) ∨
      ∃ a b, averagePrices cfg buf time = some (.ok (a, b)) ∧ (oracle a time = none ∨ oracle b time = none)) := by
  unfold validateFri at h
  rw [Option.map_eq_some_iff] at h
  obtain ⟨x, hx, rfl⟩ := h
  rw [hx]
  cases x with
  | error e => simp
  | ok avg =>
    obtain ⟨a, b⟩ := avg
    have e : ∀ a' b', (some (Except.ok (a, b)) : Option (Except AvgError (Nat × Nat))) = some (.ok (a', b')) ↔ a = a' ∧ b = b' := by
      simp
    simp only [e]
    cases ha : oracle a time with
    | none => grind
    | some x =>
      cases hb : oracle b time with
      | none => grind
      | some y =>
        unfold compareFees
        cases h1 : exceeds base x <;> cases h2 : exceeds blob y <;> grind

theorem addSample_linked {cfg : L1Config} {buf : List Sample} {last d : Sample} (hl : buf.getLast? = some last)
    (hn : d.number ≤ maxL1Number) (h1 : d.number = last.number + 1) (h2 : d.parent = last.hash) :
    addSample cfg buf d = some (pushSample cfg buf d, none) := by
  simp only [addSample, hl, h1, h2]
  rw [if_neg (by omega)]
  simp

theorem addSamples_linked {cfg : L1Config} {ds : List Sample} : ∀ {buf : List Sample} {last : Sample}, buf.getLast? = some last →
    Linked (last :: ds) → (∀ d ∈ ds, d.number ≤ maxL1Number) →
    ∃ buf', addSamples cfg buf ds = some (buf', none) ∧ buf'.getLast? = (last :: ds).getLast? := by
  induction ds with
  | nil => intro buf last hl _ _; exact ⟨buf, rfl, by simpa using hl⟩
  | cons d ds ih =>
    intro buf last hl hk hn
    obtain ⟨h1, h2⟩ := hk 0 last d rfl rfl
    obtain ⟨buf', e, hg⟩ := ih (pushSample_spec cfg buf d).2.2 (hk.suffix ⟨[last], rfl⟩) fun x hx => hn x (.tail _ hx)
    refine ⟨buf', ?_, by rw [hg, List.getLast?_cons_cons]⟩
    simp only [addSamples, addSample_linked hl (hn d (.head _)) h1 h2]
    exact e

theorem linked_number {a : Sample} {ds : List Sample} (h : Linked (a :: ds)) : ∀ i b, ds[i]? = some b → b.number = a.number + 1 + i := by
  intro i
  induction i with
  | zero => intro b hb; exact (h 0 a b rfl (by simpa using hb)).1
  | succ i ih =>
    intro b hb
    have hlt : i + 1 < ds.length := (List.getElem?_eq_some_iff.1 hb).1
    have hc := List.getElem?_eq_getElem (l := ds) (i := i) (by omega)
    have := (h (i + 1) ds[i] b hc hb).1
    rw [this, ih _ hc]
    omega

/-- A block that leaves a gap of at most the allowed size is accepted if the Ethereum client returns the blocks in between. -/
theorem C43_block_filled {cfg : L1Config} {maxGap : Nat} {fetch : Nat → Nat → Option (List Sample)} {buf mid : List Sample}
    {last d : Sample} (hl : buf.getLast? = some last) (hk : Linked (last :: mid ++ [d])) (hm : mid.length ≤ maxGap)
    (hn : d.number ≤ maxL1Number) (hf : fetch (last.number + 1) (d.number - 1) = some mid) :
    ∃ buf', processBlock cfg maxGap fetch buf d = some (buf', none) ∧ buf'.getLast? = some d := by
  have hnum : d.number = last.number + 1 + mid.length := linked_number (ds := mid ++ [d]) hk mid.length d (by simp)
  by_cases hmid : mid = []
  · subst hmid
    obtain ⟨h1, h2⟩ := hk 0 last d rfl rfl
    refine ⟨pushSample cfg buf d, ?_, (pushSample_spec cfg buf d).2.2⟩
    simp only [processBlock, addSample_linked hl hn h1 h2]
  · have hpos : 0 < mid.length := List.length_pos_iff.2 hmid
    have hgap : addSample cfg buf d = some (buf, some (.gap (last.number + 1) d.number)) := by
      simp only [addSample, hl]
      rw [if_neg (by omega), if_pos (by omega)]
    have hk' : Linked (last :: mid) := by
      intro i a b ha hb
      have hlt := (List.getElem?_eq_some_iff.1 hb).1
      exact hk i a b (by rw [List.getElem?_append_left (by omega)]; exact ha) (by rw [List.getElem?_append_left hlt]; exact hb)
    have hmn : ∀ x ∈ mid, x.number ≤ maxL1Number := by
      intro x hx
      obtain ⟨i, hi, hxe⟩ := List.getElem_of_mem hx
      have := linked_number hk' i x (by rw [List.getElem?_eq_getElem hi, hxe])
      omega
    obtain ⟨buf', e, hg⟩ := addSamples_linked (cfg := cfg) hl hk' hmn
    obtain ⟨t, a, hta⟩ : ∃ t a, mid = t ++ [a] := ⟨mid.dropLast, mid.getLast hmid, (List.dropLast_concat_getLast hmid).symm⟩
    have hga : buf'.getLast? = some a := by rw [hg, hta, ← List.cons_append, List.getLast?_concat]
    obtain ⟨h1, h2⟩ := hk (t.length + 1) a d (by simp [hta]) (by simp [hta])
    refine ⟨pushSample cfg buf' d, ?_, (pushSample_spec cfg buf' d).2.2⟩
    simp only [processBlock, hgap]
    rw [if_neg (by omega), if_neg (by omega)]
    simp only [hf, e, addSample_linked hga hn h1 h2, Option.map_some, Option.map_none]

/-- A block that is not above the newest sample, or leaves a larger gap, is refused and changes nothing. -/
theorem C43_block_refused {cfg : L1Config} {maxGap : Nat} {fetch : Nat → Nat → Option (List Sample)} {buf : List Sample}
    {last d : Sample} (hl : buf.getLast? = some last) (hn : last.number < maxL1Number) :
    (d.number ≤ last.number → processBlock cfg maxGap fetch buf d = some (buf, some .backward)) ∧
    (last.number + 1 + maxGap < d.number → processBlock cfg maxGap fetch buf d = some (buf, some .tooLarge)) := by
  have hgap : d.number ≠ last.number + 1 → addSample cfg buf d = some (buf, some (.gap (last.number + 1) d.number)) := by
    intro h
    simp only [addSample, hl]
    rw [if_neg (by omega), if_pos h]
  constructor
  · intro h
    simp only [processBlock, hgap (by omega)]
    rw [if_pos (by omega)]
  · intro h
    simp only [processBlock, hgap (by omega)]
    rw [if_neg (by omega), if_pos (by omega)]

/-! ## The hypotheses are met -/

/-- A block with a gap that is filled. -/
example : processBlock ⟨3, 2, 0, 10⟩ 5 (fun _ _ => some [⟨2, 2, 1, 2, 7, 0⟩]) [⟨1, 1, 0, 1, 5, 0⟩] ⟨3, 3, 2, 3, 9, 0⟩ =
    some ([⟨1, 1, 0, 1, 5, 0⟩, ⟨2, 2, 1, 2, 7, 0⟩, ⟨3, 3, 2, 3, 9, 0⟩], none) := by decide
example : averagePrices ⟨3, 2, 0, 10⟩ [⟨1, 1, 0, 1, 5, 0⟩, ⟨2, 2, 1, 2, 7, 0⟩, ⟨3, 3, 2, 3, 9, 0⟩] 5 = some (.ok (8, 0)) := by rfl
example : Linked [⟨1, 1, 0, 1, 5, 0⟩, ⟨2, 2, 1, 2, 7, 0⟩] :=
  (Linked.push (linked_single ⟨1, 1, 0, 1, 5, 0⟩) rfl rfl rfl : Linked ([⟨1, 1, 0, 1, 5, 0⟩] ++ [⟨2, 2, 1, 2, 7, 0⟩]))

end Verif.Gas
