import Verif.Vals.Spec
/-! # Lemmas about sets of validators and the contract's answers -/

namespace Verif.Vals

variable {K : Type}

/-! ### Sets -/

theorem mem_insert (v : Validator K) (m : List (Validator K)) (hs : Sorted m) (x : Validator K) :
    x ∈ insert v m ↔ x = v ∨ (x ∈ m ∧ x.address ≠ v.address) := by
  induction m with
  | nil => simp [insert]
  | cons w ws ih =>
    obtain ⟨hlt, hs'⟩ := hs
    have ih := ih hs'
    simp only [insert]
    split
    · rename_i h
      constructor
      · intro hx
        simp only [List.mem_cons] at hx
        rcases hx with hx | hx | hx
        · exact Or.inl hx
        · exact Or.inr ⟨by simp [hx], by rw [hx]; omega⟩
        · exact Or.inr ⟨by simp [hx], by have := hlt x hx; omega⟩
      · rintro (hx | ⟨hx, _⟩)
        · simp [hx]
        · exact List.mem_cons_of_mem _ hx
    · split
      · rename_i h
        constructor
        · intro hx
          simp only [List.mem_cons] at hx
          rcases hx with hx | hx
          · exact Or.inl hx
          · exact Or.inr ⟨by simp [hx], by have := hlt x hx; omega⟩
        · rintro (hx | ⟨hx, hne⟩)
          · simp [hx]
          · simp only [List.mem_cons] at hx
            rcases hx with hx | hx
            · rw [hx] at hne; omega
            · simp [hx]
      · rename_i h1 h2
        constructor
        · intro hx
          simp only [List.mem_cons] at hx
          rcases hx with hx | hx
          · exact Or.inr ⟨by simp [hx], by rw [hx]; omega⟩
          · rcases ih.mp hx with h | h
            · exact Or.inl h
            · exact Or.inr ⟨by simp [h.1], h.2⟩
        · rintro (hx | ⟨hx, hne⟩)
          · exact List.mem_cons_of_mem _ (ih.mpr (Or.inl hx))
          · simp only [List.mem_cons] at hx
            rcases hx with hx | hx
            · simp [hx]
            · exact List.mem_cons_of_mem _ (ih.mpr (Or.inr ⟨hx, hne⟩))

theorem sorted_insert (v : Validator K) (m : List (Validator K)) (hs : Sorted m) : Sorted (insert v m) := by
  induction m with
  | nil => simp [insert, Sorted]
  | cons w ws ih =>
    obtain ⟨hlt, hs'⟩ := hs
    simp only [insert]
    split
    · rename_i h
      refine ⟨?_, hlt, hs'⟩
      intro x hx
      simp only [List.mem_cons] at hx
      rcases hx with hx | hx
      · rw [hx]; exact h
      · have := hlt x hx; omega
    · split
      · rename_i h
        exact ⟨fun x hx => by rw [h]; exact hlt x hx, hs'⟩
      · rename_i h1 h2
        refine ⟨?_, ih hs'⟩
        intro x hx
        rcases (mem_insert v ws hs' x).mp hx with h | h
        · rw [h]; omega
        · exact hlt x h.1

/-- The map after all of `vs`. -/
theorem fold_spec (vs : List (Validator K)) (m : List (Validator K)) (hs : Sorted m) :
    Sorted (vs.foldl (fun m v => insert v m) m) ∧
    ∀ x, x ∈ vs.foldl (fun m v => insert v m) m ↔
      LastOf vs x ∨ (x ∈ m ∧ ∀ w ∈ vs, w.address ≠ x.address) := by
  induction vs generalizing m with
  | nil =>
    refine ⟨hs, fun x => ?_⟩
    simp [LastOf]
  | cons v vs ih =>
    simp only [List.foldl_cons]
    obtain ⟨h1, h2⟩ := ih (insert v m) (sorted_insert v m hs)
    refine ⟨h1, fun x => ?_⟩
    rw [h2, mem_insert v m hs]
    constructor
    · rintro (⟨pre, post, he, hp⟩ | ⟨hx | ⟨hx, hne⟩, hall⟩)
      · exact Or.inl ⟨v :: pre, post, by rw [he]; rfl, hp⟩
      · exact Or.inl ⟨[], vs, by rw [hx]; rfl, hall⟩
      · refine Or.inr ⟨hx, ?_⟩
        intro w hw
        simp only [List.mem_cons] at hw
        rcases hw with hw | hw
        · rw [hw]; exact fun e => hne e.symm
        · exact hall w hw
    · rintro (⟨pre, post, he, hp⟩ | ⟨hx, hall⟩)
      · cases pre with
        | nil =>
          simp only [List.nil_append, List.cons.injEq] at he
          exact Or.inr ⟨Or.inl he.1.symm, by rw [he.2]; exact hp⟩
        | cons p pre =>
          simp only [List.cons_append, List.cons.injEq] at he
          exact Or.inl ⟨pre, post, he.2, hp⟩
      · exact Or.inr ⟨Or.inr ⟨hx, fun e => hall v (by simp) e.symm⟩, fun w hw => hall w (by simp [hw])⟩

/-- Every address in a list has a last entry. -/
theorem exists_last (vs : List (Validator K)) (a : Nat) (h : ∃ v ∈ vs, v.address = a) :
    ∃ v, LastOf vs v ∧ v.address = a := by
  induction vs with
  | nil => simp at h
  | cons w ws ih =>
    by_cases hr : ∃ v ∈ ws, v.address = a
    · obtain ⟨v, ⟨pre, post, he, hp⟩, ha⟩ := ih hr
      exact ⟨v, ⟨w :: pre, post, by rw [he]; rfl, hp⟩, ha⟩
    · obtain ⟨v, hv, ha⟩ := h
      simp only [List.mem_cons] at hv
      rcases hv with hv | hv
      · refine ⟨w, ⟨[], ws, rfl, ?_⟩, by rw [← hv]; exact ha⟩
        intro x hx e
        exact hr ⟨x, hx, by rw [e, ← hv, ha]⟩
      · exact absurd ⟨v, hv, ha⟩ hr

theorem last_mem {vs : List (Validator K)} {v : Validator K} (h : LastOf vs v) : v ∈ vs := by
  obtain ⟨pre, post, he, _⟩ := h
  rw [he]; simp

theorem newSet_spec (vs : List (Validator K)) :
    (vs = [] ∧ newSet vs = .panic) ∨
    (vs ≠ [] ∧ ∃ set, newSet vs = .ok set ∧ Sorted set ∧ set ≠ [] ∧ ∀ x, x ∈ set ↔ LastOf vs x) := by
  cases vs with
  | nil => exact Or.inl ⟨rfl, rfl⟩
  | cons v vs =>
    right
    refine ⟨by simp, ?_⟩
    obtain ⟨h1, h2⟩ := fold_spec (v :: vs) [] trivial
    have hne : (v :: vs).foldl (fun m v => insert v m) [] ≠ [] := by
      obtain ⟨x, hx, _⟩ := exists_last (v :: vs) v.address ⟨v, by simp, rfl⟩
      exact List.ne_nil_of_mem ((h2 x).mpr (Or.inl hx))
    refine ⟨_, ?_, h1, hne, fun x => by rw [h2]; simp⟩
    simp only [newSet]
    rw [if_neg]
    simpa using hne

/-- Two sorted lists with the same members are the same. -/
theorem sorted_ext (m n : List Nat) (hm : m.Pairwise (· < ·)) (hn : n.Pairwise (· < ·)) (h : ∀ x, x ∈ m ↔ x ∈ n) :
    m = n := by
  induction m generalizing n with
  | nil =>
    cases n with
    | nil => rfl
    | cons b bs => exact absurd ((h b).mpr (by simp)) (by simp)
  | cons a as ih =>
    cases n with
    | nil => exact absurd ((h a).mp (by simp)) (by simp)
    | cons b bs =>
      rw [List.pairwise_cons] at hm hn
      have hab : a = b := by
        have h1 := (h a).mp (by simp)
        have h2 := (h b).mpr (by simp)
        simp only [List.mem_cons] at h1 h2
        rcases h1 with h1 | h1
        · exact h1
        · rcases h2 with h2 | h2
          · exact h2.symm
          · have := hn.1 a h1
            have := hm.1 b h2
            omega
      subst hab
      rw [ih bs hm.2 hn.2]
      intro x
      constructor
      · intro hx
        have := (h x).mp (by simp [hx])
        simp only [List.mem_cons] at this
        rcases this with e | e
        · have := hm.1 x hx; omega
        · exact e
      · intro hx
        have := (h x).mpr (by simp [hx])
        simp only [List.mem_cons] at this
        rcases this with e | e
        · have := hn.1 x hx; omega
        · exact e

theorem sorted_addresses (m : List (Validator K)) (h : Sorted m) : (m.map (·.address)).Pairwise (· < ·) := by
  induction m with
  | nil => simp
  | cons v vs ih =>
    rw [List.map_cons, List.pairwise_cons]
    refine ⟨?_, ih h.2⟩
    intro a ha
    obtain ⟨w, hw, he⟩ := List.mem_map.mp ha
    rw [← he]; exact h.1 w hw

/-- In a sorted set an address has one validator. -/
theorem sorted_unique (m : List (Validator K)) (h : Sorted m) (x y : Validator K) (hx : x ∈ m) (hy : y ∈ m)
    (he : x.address = y.address) : x = y := by
  induction m with
  | nil => simp at hx
  | cons v vs ih =>
    simp only [List.mem_cons] at hx hy
    rcases hx with hx | hx <;> rcases hy with hy | hy
    · rw [hx, hy]
    · have := h.1 y hy; rw [hx] at he; omega
    · have := h.1 x hx; rw [hy] at he; omega
    · exact ih h.2 hx hy

theorem sorted_find (m : List (Validator K)) (h : Sorted m) (x : Validator K) (hx : x ∈ m) (a : Nat) (ha : x.address = a) :
    m.find? (fun v => v.address = a) = some x := by
  cases hf : m.find? (fun v => decide (v.address = a)) with
  | none =>
    rw [List.find?_eq_none] at hf
    exact absurd ha (by simpa using hf x hx)
  | some y =>
    have h1 := List.find?_some hf
    have h2 := List.mem_of_find?_eq_some hf
    simp only [decide_eq_true_eq] at h1
    rw [sorted_unique m h y x h2 hx (by rw [h1, ha])]

/-- The first of a sorted set has the least address. -/
theorem sorted_head (m : List (Validator K)) (h : Sorted m) (hne : m ≠ []) :
    ∃ p, m.head? = some p ∧ p ∈ m ∧ ∀ x ∈ m, p.address ≤ x.address := by
  cases m with
  | nil => exact absurd rfl hne
  | cons p ps =>
    refine ⟨p, rfl, by simp, ?_⟩
    intro x hx
    simp only [List.mem_cons] at hx
    rcases hx with hx | hx
    · rw [hx]; omega
    · have := h.1 x hx; omega

theorem least_unique {as : List Nat} {a b : Nat} (ha : Least as a) (hb : Least as b) : a = b := by
  have := ha.2 b hb.1
  have := hb.2 a ha.1
  omega

/-- The set of what a list of addresses stands for. -/
theorem newSet_addresses (vs : List (Validator K)) (set : List (Validator K)) (h : newSet vs = .ok set) (a : Nat) :
    a ∈ set.map (·.address) ↔ a ∈ vs.map (·.address) := by
  rcases newSet_spec vs with ⟨_, h1⟩ | ⟨_, s, h1, _, _, hm⟩
  · rw [h1] at h; exact absurd h (by simp)
  · rw [h1] at h
    simp only [Out.ok.injEq] at h
    subst h
    constructor
    · intro ha
      obtain ⟨x, hx, he⟩ := List.mem_map.mp ha
      exact List.mem_map.mpr ⟨x, last_mem ((hm x).mp hx), he⟩
    · intro ha
      obtain ⟨x, hx, he⟩ := List.mem_map.mp ha
      obtain ⟨y, hy, hye⟩ := exists_last vs a ⟨x, hx, he⟩
      exact List.mem_map.mpr ⟨y, (hm y).mpr hy, hye⟩

theorem newSet_ok {vs set : List (Validator K)} (h : newSet vs = .ok set) :
    Sorted set ∧ set ≠ [] ∧ ∀ x, x ∈ set ↔ LastOf vs x := by
  rcases newSet_spec vs with ⟨_, h1⟩ | ⟨_, s, h1, h2, h3, h4⟩
  · rw [h1] at h; exact absurd h (by simp)
  · rw [h1] at h
    simp only [Out.ok.injEq] at h
    subst h
    exact ⟨h2, h3, h4⟩

/-! ### The number of addresses -/

theorem mem_dedup (l : List Nat) (a : Nat) : a ∈ dedup l ↔ a ∈ l := by
  induction l with
  | nil => simp [dedup]
  | cons b bs ih =>
    simp only [dedup]
    split
    · rename_i h
      rw [ih]
      constructor
      · intro h'; simp [h']
      · intro h'
        simp only [List.mem_cons] at h'
        rcases h' with e | e
        · rw [e]; exact h
        · exact e
    · simp [ih]

theorem nodup_dedup (l : List Nat) : (dedup l).Nodup := by
  induction l with
  | nil => simp [dedup]
  | cons b bs ih =>
    simp only [dedup]
    split
    · exact ih
    · rename_i h
      rw [List.nodup_cons]
      exact ⟨fun h' => h ((mem_dedup bs b).mp h'), ih⟩

/-! ### The contract's answer -/

theorem parseChunks_encode (toKey : Nat → Option K) (l : List Entry) (ps : List (Validator K)) :
    parseChunks toKey (l.flatMap (fun e => [e.address, e.keyFelt, e.number])) = .ok ps ↔
      ∃ qs, Reads toKey l qs ∧ ps = qs.map (fun q => { q with power := low64 q.power }) := by
  induction l generalizing ps with
  | nil =>
    simp only [List.flatMap_nil, parseChunks, Out.ok.injEq]
    constructor
    · intro h; exact ⟨[], .nil, by simp [← h]⟩
    · rintro ⟨qs, hq, he⟩
      cases hq
      simp [he]
  | cons e l ih =>
    simp only [List.flatMap_cons, List.cons_append, List.nil_append, parseChunks]
    cases hk : toKey e.keyFelt with
    | none =>
      simp only [reduceCtorEq, false_iff]
      rintro ⟨qs, hq, _⟩
      cases hq with
      | cons h _ => rw [hk] at h; exact absurd h (by simp)
    | some key =>
      cases hp : parseChunks toKey (l.flatMap (fun e => [e.address, e.keyFelt, e.number])) with
      | ok qs' =>
        simp only [Out.ok.injEq]
        obtain ⟨qs, hq, he⟩ := (ih qs').mp hp
        constructor
        · intro h
          exact ⟨_, .cons hk hq, by rw [← h, he]; rfl⟩
        · rintro ⟨qs2, hq2, he2⟩
          cases hq2 with
          | cons h1 h2 =>
            rw [hk] at h1
            simp only [Option.some.injEq] at h1
            have := (ih _).mpr ⟨_, h2, rfl⟩
            rw [hp] at this
            simp only [Out.ok.injEq] at this
            rw [he2, this, ← h1]
            rfl
      | err =>
        simp only [reduceCtorEq, false_iff]
        rintro ⟨qs, hq, _⟩
        cases hq with
        | cons h1 h2 =>
          have := (ih _).mpr ⟨_, h2, rfl⟩
          rw [hp] at this
          exact absurd this (by simp)
      | panic =>
        simp only [reduceCtorEq, false_iff]
        rintro ⟨qs, hq, _⟩
        cases hq with
        | cons h1 h2 =>
          have := (ih _).mpr ⟨_, h2, rfl⟩
          rw [hp] at this
          exact absurd this (by simp)

theorem parseChunks_not_panic (toKey : Nat → Option K) (data : List Nat) : parseChunks toKey data ≠ .panic := by
  fun_induction parseChunks toKey data <;> simp_all

theorem reads_length {toKey : Nat → Option K} {l : List Entry} {ps : List (Validator K)} (h : Reads toKey l ps) :
    ps.length = l.length := by
  induction h with
  | nil => rfl
  | cons _ _ ih => simp [ih]

theorem data_length (l : List Entry) :
    (l.flatMap (fun e => [e.address, e.keyFelt, e.number])).length = l.length * 3 := by
  induction l with
  | nil => rfl
  | cons e l ih => simp only [List.flatMap_cons, List.length_append, List.length_cons, List.length_nil, ih]; omega

/-- A list of three times `n` values is the fields of `n` entries. -/
theorem data_entries (n : Nat) (data : List Nat) (h : data.length = n * 3) :
    ∃ l : List Entry, l.length = n ∧ data = l.flatMap (fun e => [e.address, e.keyFelt, e.number]) := by
  induction n generalizing data with
  | zero =>
    have : data = [] := List.eq_nil_of_length_eq_zero (by omega)
    exact ⟨[], rfl, by rw [this]; rfl⟩
  | succ n ih =>
    match data, h with
    | a :: k :: v :: rest, h =>
      simp only [List.length_cons] at h
      obtain ⟨l, hl, he⟩ := ih rest (by omega)
      exact ⟨⟨a, k, v⟩ :: l, by simp [hl], by rw [he]; rfl⟩
    | [], h => simp at h
    | [_], h => simp at h; omega
    | [_, _], h => simp at h; omega

theorem reads_exact {toKey : Nat → Option K} {l : List Entry} {qs : List (Validator K)} (h : Reads toKey l qs)
    (hv : ∀ e ∈ l, e.number < 2 ^ 64) : qs.map (fun q => { q with power := low64 q.power }) = qs := by
  induction h with
  | nil => rfl
  | cons hk hr ih =>
    rename_i e key l ps
    rw [List.map_cons, ih (fun e he => hv e (by simp [he]))]
    have := hv e (by simp)
    simp only [low64, Nat.mod_eq_of_lt this]

theorem reads_unique {toKey : Nat → Option K} {l : List Entry} {ps qs : List (Validator K)} (h1 : Reads toKey l ps)
    (h2 : Reads toKey l qs) : ps = qs := by
  induction h1 generalizing qs with
  | nil => cases h2; rfl
  | cons hk hr ih =>
    cases h2 with
    | cons hk' hr' =>
      rw [hk] at hk'
      simp only [Option.some.injEq] at hk'
      rw [ih hr', hk']

end Verif.Vals
