import Verif.Exec.Spec

namespace Verif.Exec
open Spec

theorem rev_some {α β : Type} (l : List α) (f : α → Option β) (v : β) :
    l.reverse.findSome? f = some v ↔
      ∃ pre b post, l = pre ++ b :: post ∧ f b = some v ∧ ∀ x ∈ post, f x = none := by
  rw [List.findSome?_eq_some_iff]
  constructor
  · rintro ⟨l₁, a, l₂, e, h, hn⟩
    refine ⟨l₂.reverse, a, l₁.reverse, ?_, h, ?_⟩
    · have := congrArg List.reverse e
      simpa using this
    · intro x hx
      exact hn x (by simpa using hx)
  · rintro ⟨pre, b, post, e, h, hn⟩
    refine ⟨post.reverse, b, pre.reverse, ?_, h, ?_⟩
    · rw [e]; simp
    · intro x hx
      exact hn x (by simpa using hx)

theorem rev_idx_some {α β : Type} (l : List α) (f : α → Option β) (v : β) :
    l.reverse.findSome? f = some v ↔
      ∃ m : Nat, l[m]?.bind f = some v ∧ ∀ m', m < m' → l[m']?.bind f = none := by
  rw [rev_some]
  constructor
  · rintro ⟨pre, b, post, rfl, h, hn⟩
    refine ⟨pre.length, by simp [h], ?_⟩
    intro m' hm
    rw [List.getElem?_append_right (by omega)]
    obtain ⟨j, hj⟩ : ∃ j, m' - pre.length = j + 1 := ⟨m' - pre.length - 1, by omega⟩
    rw [hj, List.getElem?_cons_succ]
    cases hp : post[j]? with
    | none => rfl
    | some x => exact hn x (List.mem_of_getElem? hp)
  · rintro ⟨m, h, hn⟩
    cases hm : l[m]? with
    | none => rw [hm] at h; cases h
    | some b =>
      rw [hm] at h
      have hlt : m < l.length := by
        rcases Nat.lt_or_ge m l.length with h' | h'
        · exact h'
        · rw [List.getElem?_eq_none h'] at hm; cases hm
      refine ⟨l.take m, b, l.drop (m + 1), ?_, h, ?_⟩
      · have hb : l[m] = b := by
          rw [List.getElem?_eq_getElem hlt] at hm
          exact Option.some.inj hm
        rw [← hb, ← List.drop_eq_getElem_cons hlt, List.take_append_drop]
      · intro x hx
        obtain ⟨j, hj⟩ := List.mem_iff_getElem?.mp hx
        rw [List.getElem?_drop] at hj
        have := hn (m + 1 + j) (by omega)
        rw [hj] at this
        exact this

theorem rev_idx_none {α β : Type} (l : List α) (f : α → Option β) :
    l.reverse.findSome? f = none ↔ ∀ m : Nat, l[m]?.bind f = none := by
  rw [List.findSome?_eq_none_iff]
  constructor
  · intro h m
    cases hm : l[m]? with
    | none => rfl
    | some b => exact h b (by simpa using List.mem_of_getElem? hm)
  · intro h x hx
    obtain ⟨j, hj⟩ := List.mem_iff_getElem?.mp (List.mem_reverse.mp hx)
    have := h j
    rw [hj] at this
    exact this

theorem rev_idx_ext {α β : Type} (l l' : List α) (f : α → Option β)
    (h : ∀ m : Nat, l[m]?.bind f = l'[m]?.bind f) :
    l.reverse.findSome? f = l'.reverse.findSome? f := by
  cases e : l'.reverse.findSome? f with
  | none =>
    rw [rev_idx_none] at e ⊢
    intro m; rw [h, e]
  | some v =>
    rw [rev_idx_some] at e ⊢
    obtain ⟨m, h1, h2⟩ := e
    exact ⟨m, by rw [h, h1], fun m' hm => by rw [h, h2 m' hm]⟩

theorem mem_revBlocks {d : Decided} {n : Nat} {p : Nat × Blk} :
    p ∈ revBlocks d n ↔ p ∈ d ∧ p.1 ≤ n := by
  simp [revBlocks]

theorem decided_some {α : Type} {d : Decided} (hd : d.Pairwise (fun p q => p.1 < q.1)) (n : Nat)
    (f : Nat × Blk → Option α) (v : α) (h : (revBlocks d n).findSome? f = some v) :
    ∃ p ∈ d, p.1 ≤ n ∧ f p = some v ∧ ∀ q ∈ d, p.1 < q.1 → q.1 ≤ n → f q = none := by
  unfold revBlocks at h
  rw [rev_some] at h
  obtain ⟨pre, b, post, e, hb, hn⟩ := h
  have hm : b ∈ d.filter fun p => decide (p.1 ≤ n) := by rw [e]; simp
  have hmem := List.mem_filter.mp hm
  refine ⟨b, hmem.1, of_decide_eq_true hmem.2, hb, ?_⟩
  intro q hq hlt hle
  have hq' : q ∈ d.filter fun p => decide (p.1 ≤ n) := List.mem_filter.mpr ⟨hq, decide_eq_true hle⟩
  have hpw : (d.filter fun p => decide (p.1 ≤ n)).Pairwise (fun p q => p.1 < q.1) :=
    hd.sublist List.filter_sublist
  rw [e] at hq' hpw
  rcases List.mem_append.mp hq' with h1 | h1
  · have := (List.pairwise_append.mp hpw).2.2 q h1 b (by simp)
    omega
  · rcases List.mem_cons.mp h1 with h2 | h2
    · subst h2; omega
    · exact hn q h2

theorem take_getElem? {α : Type} (l : List α) (k m : Nat) :
    (l.take k)[m]? = if m < k then l[m]? else none := List.getElem?_take

/-- Reading through the decided blocks and then the database is reading the chain, as long as a
decided block is passed over exactly when it says nothing. -/
theorem read_chain {α : Type} {chain : List Blk} {n : Nat} {db : Db} {d : Decided}
    (hv : OnTop chain n db d) (sel : Blk → Option α) :
    ((revBlocks d n).findSome? fun p => sel p.2).or (db.newest n sel) =
      (chain.take (n + 1)).reverse.findSome? sel := by
  have hst : ∀ m, m < db.blocks.length → db.blocks[m]? = chain[m]? := by
    intro m hm
    conv => lhs; rw [hv.stored]
    rw [take_getElem?, if_pos hm]
  cases e : (revBlocks d n).findSome? fun p => sel p.2 with
  | some v =>
    obtain ⟨p, hp, hle, hs, hn⟩ := decided_some hv.ascending n _ v e
    rw [Option.some_or]
    symm
    rw [rev_idx_some]
    refine ⟨p.1, ?_, ?_⟩
    · rw [take_getElem?, if_pos (by omega), hv.agree p hp]
      exact hs
    · intro m' hm
      rw [take_getElem?]
      by_cases hmn : m' < n + 1
      · rw [if_pos hmn]
        obtain ⟨b, hb⟩ := hv.noGap p hp m' hm (by omega)
        rw [hv.agree (m', b) hb]
        exact hn (m', b) hb hm (by omega)
      · rw [if_neg hmn]; rfl
  | none =>
    rw [Option.none_or]
    unfold Db.newest
    apply rev_idx_ext
    intro m
    rw [take_getElem?, take_getElem?]
    by_cases hmn : m < n + 1
    · rw [if_pos hmn, if_pos hmn]
      by_cases hk : m < db.blocks.length
      · rw [hst m hk]
      · rw [List.getElem?_eq_none (by omega)]
        rcases hv.cover m (by omega) with h | ⟨b, hb⟩
        · omega
        · rw [hv.agree (m, b) hb]
          have hnone := List.findSome?_eq_none_iff.mp e (m, b)
            (mem_revBlocks.mpr ⟨hb, by show m ≤ n; omega⟩)
          exact hnone.symm
    · rw [if_neg hmn, if_neg hmn]

/-! ### Lookups and entries -/

theorem mem_of_lookup {α : Type} {l : List (Nat × α)} {k : Nat} {v : α}
    (h : l.lookup k = some v) : (k, v) ∈ l := by
  induction l with
  | nil => cases h
  | cons p l ih =>
    obtain ⟨a, b⟩ := p
    rw [List.lookup_cons] at h
    by_cases e : k = a
    · subst e
      simp at h
      simp [h]
    · have : (k == a) = false := by simpa using e
      rw [this] at h
      simp at h
      exact List.mem_cons_of_mem _ (ih h)

theorem lookup_of_mem {α : Type} {l : List (Nat × α)} (hn : (l.map (·.1)).Nodup) {k : Nat} {v : α}
    (h : (k, v) ∈ l) : l.lookup k = some v := by
  induction l with
  | nil => cases h
  | cons p l ih =>
    obtain ⟨a, b⟩ := p
    rw [List.map_cons, List.nodup_cons] at hn
    rw [List.lookup_cons]
    rcases List.mem_cons.mp h with h' | h'
    · cases h'; simp
    · have : k ≠ a := by
        rintro rfl
        exact hn.1 (List.mem_map.mpr ⟨(k, v), h', rfl⟩)
      have : (k == a) = false := by simpa using this
      rw [this]
      exact ih hn.2 h'

theorem lookup_none_iff {α : Type} {l : List (Nat × α)} {k : Nat} :
    l.lookup k = none ↔ ∀ v, (k, v) ∉ l := by
  induction l with
  | nil => simp
  | cons p l ih =>
    obtain ⟨a, b⟩ := p
    rw [List.lookup_cons]
    by_cases e : k = a
    · subst e
      simp only [beq_self_eq_true]
      constructor
      · intro h; cases h
      · intro h; exact absurd List.mem_cons_self (h b)
    · have he : (k == a) = false := by simpa using e
      rw [he]
      simp only [ih]
      constructor
      · intro h v hm
        rcases List.mem_cons.mp hm with h' | h'
        · exact e (by cases h'; rfl)
        · exact h v h'
      · intro h v hm
        exact h v (List.mem_cons_of_mem _ hm)

theorem lookup_append {α : Type} (l l' : List (Nat × α)) (k : Nat) :
    (l ++ l').lookup k = (l.lookup k).or (l'.lookup k) := by
  induction l with
  | nil => simp
  | cons p l ih =>
    obtain ⟨a, b⟩ := p
    rw [List.cons_append, List.lookup_cons, List.lookup_cons]
    cases (k == a) <;> simp [ih]

theorem lookup_map {α β : Type} (l : List (Nat × α)) (g : α → β) (k : Nat) :
    (l.map fun q => (q.1, g q.2)).lookup k = (l.lookup k).map g := by
  induction l with
  | nil => simp
  | cons p l ih =>
    obtain ⟨a, b⟩ := p
    rw [List.map_cons, List.lookup_cons, List.lookup_cons]
    cases (k == a) <;> simp [ih]

theorem slot_iff {b : Blk} (hb : Wf b) (a k v : Nat) : b.slot a k = some v ↔ SetsSlot a k b v := by
  unfold Blk.slot SetsSlot
  constructor
  · intro h
    rcases Option.or_eq_some_iff.mp h with h | ⟨_, h⟩
    · obtain ⟨u, hu, hs⟩ := Option.bind_eq_some_iff.mp h
      exact .inl ⟨u, mem_of_lookup hu, mem_of_lookup hs⟩
    · obtain ⟨u, hu, hs⟩ := Option.bind_eq_some_iff.mp h
      exact .inr ⟨u, mem_of_lookup hu, mem_of_lookup hs⟩
  · rintro (⟨u, hu, hs⟩ | ⟨s, hu, hs⟩)
    · rw [lookup_of_mem hb.contracts hu, Option.bind_some, lookup_of_mem (hb.slots _ hu) hs]
      rfl
    · have : b.contracts.lookup a = none := by
        rw [lookup_none_iff]
        intro u hu'
        exact hb.apart a ⟨u, hu'⟩ ⟨s, hu⟩
      rw [this, Option.bind_none, Option.none_or, lookup_of_mem hb.system hu, Option.bind_some,
        lookup_of_mem (hb.systemSlots _ hu) hs]

theorem decided_slot {b : Blk} (hb : Wf b) (a k : Nat) :
    (((b.contracts.map fun q => (q.1, q.2.storage)) ++ b.system).lookup a).bind
      (fun s => s.lookup k) = b.slot a k := by
  unfold Blk.slot
  rw [lookup_append, lookup_map b.contracts (fun u => u.storage)]
  cases h : b.contracts.lookup a with
  | none => simp
  | some u =>
    have : b.system.lookup a = none := by
      rw [lookup_none_iff]
      intro s hs
      exact hb.apart a ⟨u, mem_of_lookup h⟩ ⟨s, hs⟩
    rw [this]
    simp

theorem nonce_iff {b : Blk} (hb : Wf b) (a v : Nat) : b.nonce a = some v ↔ SetsNonce a b v := by
  unfold Blk.nonce SetsNonce
  constructor
  · intro h
    obtain ⟨u, hu, hs⟩ := Option.bind_eq_some_iff.mp h
    exact ⟨u, mem_of_lookup hu, hs⟩
  · rintro ⟨u, hu, hs⟩
    rw [lookup_of_mem hb.contracts hu, Option.bind_some, hs]

theorem cls_iff {b : Blk} (hb : Wf b) (a v : Nat) : b.cls a = some v ↔ SetsClass a b v := by
  unfold Blk.cls SetsClass
  constructor
  · intro h
    obtain ⟨u, hu, hs⟩ := Option.bind_eq_some_iff.mp h
    refine ⟨u, mem_of_lookup hu, ?_⟩
    obtain ⟨c, hc, he⟩ := Option.map_eq_some_iff.mp hs
    cases c with
    | deploy x => cases he; exact .inl hc
    | replace x => cases he; exact .inr hc
  · rintro ⟨u, hu, hs⟩
    rw [lookup_of_mem hb.contracts hu, Option.bind_some]
    rcases hs with hs | hs <;> rw [hs] <;> rfl

theorem casm_iff {b : Blk} (hb : Wf b) (h v : Nat) :
    b.casmHash h = some v ↔ SetsCompiled h b v := by
  unfold Blk.casmHash SetsCompiled
  constructor
  · intro e
    rcases Option.or_eq_some_iff.mp e with e | ⟨en, e⟩
    · exact .inl (mem_of_lookup e)
    · exact .inr ⟨mem_of_lookup e, lookup_none_iff.mp en⟩
  · rintro (e | ⟨e, en⟩)
    · rw [lookup_of_mem hb.declared e]; rfl
    · rw [lookup_none_iff.mpr en, Option.none_or, lookup_of_mem hb.migrated e]

theorem introduces_iff (b : Blk) (h : Nat) : b.introduces h = true ↔ Declares b h := by
  unfold Blk.introduces Declares
  simp only [Bool.or_eq_true, List.contains_iff_mem, List.any_eq_true, beq_iff_eq]
  constructor
  · rintro ((h | ⟨⟨a, c⟩, hm, rfl⟩) | h)
    · exact .inl h
    · exact .inr (.inl ⟨c, hm⟩)
    · exact .inr (.inr h)
  · rintro (h | ⟨c, hm⟩ | h)
    · exact .inl (.inl h)
    · exact .inl (.inr ⟨_, hm, rfl⟩)
    · exact .inr h

/-- The newest block that says something, as a statement about the blocks. -/
theorem last_of_newest {chain : List Blk} (sel : Blk → Option Nat) (says : Blk → Nat → Prop)
    (hs : ∀ b ∈ chain, ∀ v, sel b = some v ↔ says b v) :
    Last chain says ((chain.reverse.findSome? sel).getD 0) := by
  cases e : chain.reverse.findSome? sel with
  | none =>
    refine .inr ⟨rfl, ?_⟩
    intro b hb w hw
    have := List.findSome?_eq_none_iff.mp e b (List.mem_reverse.mpr hb)
    rw [(hs b hb w).mpr hw] at this
    cases this
  | some v =>
    obtain ⟨pre, b, post, hc, hb, hn⟩ := (rev_some _ _ _).mp e
    refine .inl ⟨pre, b, post, hc, (hs b (by rw [hc]; simp) v).mp hb, ?_⟩
    intro b' hb' w hw
    have := hn b' hb'
    rw [(hs b' (by rw [hc]; simp [hb']) w).mpr hw] at this
    cases this

theorem last_unique {chain : List Blk} {says : Blk → Nat → Prop}
    (fn : ∀ b ∈ chain, ∀ v w, says b v → says b w → v = w) {v w : Nat}
    (hv : Last chain says v) (hw : Last chain says w) : v = w := by
  rcases hv with ⟨p, b, q, e, h, hn⟩ | ⟨rfl, hn⟩
  · rcases hw with ⟨p', b', q', e', h', hn'⟩ | ⟨rfl, hn'⟩
    · have hlen : p.length = p'.length := by
        rcases Nat.lt_trichotomy p.length p'.length with hl | hl | hl
        · have h1 : chain[p'.length]? = some b' := by rw [e']; simp
          rw [e, List.getElem?_append_right (by omega)] at h1
          obtain ⟨j, hj⟩ : ∃ j, p'.length - p.length = j + 1 := ⟨p'.length - p.length - 1, by omega⟩
          rw [hj, List.getElem?_cons_succ] at h1
          exact absurd h' (hn b' (List.mem_of_getElem? h1) w)
        · exact hl
        · have h1 : chain[p.length]? = some b := by rw [e]; simp
          rw [e', List.getElem?_append_right (by omega)] at h1
          obtain ⟨j, hj⟩ : ∃ j, p.length - p'.length = j + 1 := ⟨p.length - p'.length - 1, by omega⟩
          rw [hj, List.getElem?_cons_succ] at h1
          exact absurd h (hn' b (List.mem_of_getElem? h1) v)
      have h1 : chain[p.length]? = some b := by rw [e]; simp
      have h2 : chain[p.length]? = some b' := by rw [hlen, e']; simp
      rw [h1] at h2
      cases h2
      exact fn b (by rw [e]; simp) v w h h'
    · exact absurd h (hn' b (by rw [e]; simp) v)
  · rcases hw with ⟨p', b', q', e', h', hn'⟩ | ⟨rfl, hn'⟩
    · exact absurd h' (hn b' (by rw [e']; simp) w)
    · rfl

end Verif.Exec
