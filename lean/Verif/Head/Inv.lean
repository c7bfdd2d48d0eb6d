import Verif.Head.Lemmas
namespace Verif.Head

/-- What holds of the database in every state that is reached. -/
structure Inv (db : DB) (ann : List (Nat × Hash)) : Prop where
  linked : Linked db.blocks
  seen : ∀ r ∈ db.l1, r ∈ ann
  below : ∀ p, db.pointer = some p → ∃ x, db.blocks.getLast? = some x ∧ p ≤ x.number
  sound : ∀ p, db.pointer = some p → ∀ b ∈ db.blocks, b.number ≤ p → ∃ c : Blk, (c.number, c.hash) ∈ ann ∧ Anc b c

theorem Inv.mono {db : DB} {ann : List (Nat × Hash)} (h : Inv db ann) (more : List (Nat × Hash)) : Inv db (ann ++ more) :=
  ⟨h.linked, fun r hr => List.mem_append_left _ (h.seen r hr), h.below, fun p hp b hb hle =>
    let ⟨c, hc, ha⟩ := h.sound p hp b hb hle; ⟨c, List.mem_append_left _ hc, ha⟩⟩

theorem inv_empty : Inv DB.empty [] :=
  ⟨trivial, fun r hr => (by cases hr), fun p hp => (by cases hp), fun p hp => (by cases hp)⟩

theorem block_upsert (db : DB) (n m : Nat) (h : Hash) : (db.upsertL1 n h).block m = db.block m := rfl

theorem l1Update_blocks (db : DB) (n : Nat) (h : Hash) : (db.l1Update n h).blocks = db.blocks := by
  unfold DB.l1Update
  cases hb : (db.upsertL1 n h).block n with
  | none => simp only [hb]; rfl
  | some b => simp only [hb]; split <;> rfl

theorem l1Update_l1 (db : DB) (n : Nat) (h : Hash) : (db.l1Update n h).l1 = (n, h) :: db.l1.filter fun r => r.1 != n := by
  unfold DB.l1Update
  cases hb : (db.upsertL1 n h).block n with
  | none => simp only [hb]; rfl
  | some b => simp only [hb]; split <;> rfl

theorem l1Update_pointer (db : DB) (n : Nat) (h : Hash) :
    (db.l1Update n h).pointer = if (db.block n).any (fun b => b.hash = h) then some n else db.pointer := by
  unfold DB.l1Update
  simp only [block_upsert]
  cases hb : db.block n with
  | none => simp; rfl
  | some b =>
    by_cases hh : b.hash = h
    · simp [hh]
    · simp [hh]; rfl

theorem inv_l1Update {db : DB} {ann : List (Nat × Hash)} (h : Inv db ann) (n : Nat) (x : Hash) : Inv (db.l1Update n x) (ann ++ [(n, x)]) := by
  refine ⟨?_, ?_, ?_, ?_⟩
  · rw [l1Update_blocks]; exact h.linked
  · rw [l1Update_l1]
    intro r hr
    rcases List.mem_cons.mp hr with rfl | hr
    · simp
    · exact List.mem_append_left _ (h.seen r (List.mem_filter.mp hr).1)
  · intro p hp
    rw [l1Update_pointer] at hp
    rw [l1Update_blocks]
    split at hp
    · rename_i hany
      cases hp
      cases hb : db.block n with
      | none => simp [hb] at hany
      | some b =>
        obtain ⟨hm, hn⟩ := block_mem hb
        cases hl : db.blocks.getLast? with
        | none => rw [List.getLast?_eq_none_iff] at hl; rw [hl] at hm; cases hm
        | some y => exact ⟨y, rfl, hn ▸ le_last h.linked hl hm⟩
    · exact h.below p hp
  · intro p hp b hb hle
    rw [l1Update_blocks] at hb
    rw [l1Update_pointer] at hp
    split at hp
    · rename_i hany
      cases hp
      cases hc : db.block n with
      | none => simp [hc] at hany
      | some c =>
        obtain ⟨hm, hn⟩ := block_mem hc
        simp [hc] at hany
        exact ⟨c, by rw [hn, hany]; simp, linked_anc h.linked hb hm (hn ▸ hle)⟩
    · obtain ⟨c, hc, ha⟩ := h.sound p hp b hb hle
      exact ⟨c, List.mem_append_left _ hc, ha⟩

theorem isAccepted_iff (db : DB) (n : Nat) : db.isAccepted n = true ↔ ∃ p b, db.pointer = some p ∧ db.block n = some b ∧ n ≤ p := by
  unfold DB.isAccepted
  cases hp : db.pointer with
  | none => simp
  | some p =>
    cases hb : db.block n with
    | none => simp
    | some b => simp [(block_mem hb).2]

/-- What pruning does: it leaves the rest as it is, and takes the blocks below a number that is not above the head. -/
theorem dropBelow_cases (db : DB) (point k : Nat) : ∃ t, t ≤ point ∧
    db.dropBelow point k = { db with blocks := db.blocks.filter fun b => !(b.number < t) } := by
  unfold DB.dropBelow
  split
  · refine ⟨0, by omega, ?_⟩
    have : (db.blocks.filter fun b => !decide (b.number < 0)) = db.blocks := by
      rw [List.filter_eq_self]; intro a _; simp
    rw [this]
  · exact ⟨point - k, by omega, rfl⟩

theorem filter_zero (l : List Blk) : (l.filter fun b => !decide (b.number < 0)) = l := by
  rw [List.filter_eq_self]; intro a _; simp

theorem pruneL1_cases {db : DB} (hl : Linked db.blocks) (kept : Option Nat) (n : Nat) : ∃ t, (t = 0 ∨ ∃ x, db.blocks.getLast? = some x ∧ t ≤ x.number) ∧
    db.pruneL1 kept n = { db with blocks := db.blocks.filter fun b => !(b.number < t) } := by
  unfold DB.pruneL1
  rw [latest_eq hl]
  cases kept with
  | none => exact ⟨0, .inl rfl, by simp only [filter_zero]⟩
  | some k =>
    cases hx : db.blocks.getLast? with
    | none => exact ⟨0, .inl rfl, by simp only [filter_zero]⟩
    | some x =>
      simp only
      split
      · exact ⟨0, .inl rfl, by simp only [filter_zero]⟩
      · obtain ⟨t, ht, e⟩ := dropBelow_cases db n k
        exact ⟨t, .inr ⟨x, rfl, by omega⟩, e⟩

theorem pruneL2_cases {db : DB} {x : Blk} (_hx : db.blocks.getLast? = some x) (kept : Option Nat) : ∃ t, t ≤ x.number ∧
    db.pruneL2 kept x.number = { db with blocks := db.blocks.filter fun b => !(b.number < t) } := by
  unfold DB.pruneL2
  cases kept with
  | none => exact ⟨0, by omega, by simp only [filter_zero]⟩
  | some k =>
    simp only
    split
    · exact ⟨0, by omega, by simp only [filter_zero]⟩
    · split
      · exact ⟨0, by omega, by simp only [filter_zero]⟩
      · exact dropBelow_cases db x.number k

theorem inv_prune {db : DB} {ann : List (Nat × Hash)} (h : Inv db ann) {t : Nat} (ht : t = 0 ∨ ∃ x, db.blocks.getLast? = some x ∧ t ≤ x.number) :
    Inv { db with blocks := db.blocks.filter fun b => !(b.number < t) } ann := by
  refine ⟨filter_above h.linked t, h.seen, ?_, fun p hp b hb hle => h.sound p hp b (List.mem_filter.mp hb).1 hle⟩
  intro p hp
  obtain ⟨x, hx, hle⟩ := h.below p hp
  refine ⟨x, ?_, hle⟩
  apply last_filter_above h.linked hx
  rcases ht with rfl | ⟨y, hy, hty⟩
  · omega
  · rw [hx] at hy; cases hy; exact hty

theorem track_blocks (db : DB) (b : Blk) : (db.track b).blocks = db.blocks := by unfold DB.track; split <;> rfl
theorem track_l1 (db : DB) (b : Blk) : (db.track b).l1 = db.l1 := by unfold DB.track; split <;> rfl

theorem l1At_mem {db : DB} {n : Nat} {h : Hash} (e : db.l1At n = some h) : (n, h) ∈ db.l1 := by
  unfold DB.l1At at e
  cases hf : db.l1.find? fun r => r.1 == n with
  | none => rw [hf] at e; cases e
  | some r =>
    rw [hf] at e
    have h1 := List.find?_some hf
    have h2 := List.mem_of_find?_eq_some hf
    simp at e h1
    rw [← e, ← h1]; exact h2

/-- A block that continues the chain is not stored yet. -/
theorem continues_fresh {l : List Blk} (h : Linked l) {b : Blk} (hc : Continues l b) {c : Blk} (hm : c ∈ l) : c.number < b.number := by
  unfold Continues at hc
  cases hx : l.getLast? with
  | none => rw [List.getLast?_eq_none_iff] at hx; rw [hx] at hm; cases hm
  | some x =>
    rw [hx] at hc
    have := le_last h hx hm
    have := hc.1
    omega

theorem continues_insert {db : DB} (h : Linked db.blocks) {b : Blk} (hc : Continues db.blocks b) :
    db.insert b = some { db with blocks := db.blocks ++ [b] } := by
  unfold DB.insert
  have : db.block b.number = none := by
    cases hb : db.block b.number with
    | none => rfl
    | some c =>
      obtain ⟨hm, hn⟩ := block_mem hb
      have := continues_fresh h hc hm
      omega
  rw [this]; rfl

theorem continues_linked {l : List Blk} (h : Linked l) {b : Blk} (hc : Continues l b) : Linked (l ++ [b]) := by
  apply linked_append h
  intro x hx
  unfold Continues at hc
  rw [hx] at hc; exact hc

theorem continues_genesis {l : List Blk} (h : FromGenesis l) {b : Blk} (hc : Continues l b) : FromGenesis (l ++ [b]) := by
  apply genesis_append h
  intro e
  subst e
  exact hc

theorem inv_insert {db : DB} {ann : List (Nat × Hash)} (h : Inv db ann) {b : Blk} (hc : Continues db.blocks b) :
    Inv (DB.track { db with blocks := db.blocks ++ [b] } b) ann := by
  have hl := continues_linked h.linked hc
  refine ⟨?_, ?_, ?_, ?_⟩
  · rw [track_blocks]; exact hl
  · rw [track_l1]; exact h.seen
  · intro p hp
    rw [track_blocks]
    refine ⟨b, by simp, ?_⟩
    unfold DB.track at hp
    split at hp
    · cases hp; omega
    · obtain ⟨x, hx, hle⟩ := h.below p hp
      have := continues_fresh h.linked hc (List.mem_of_getLast? hx)
      omega
  · intro p hp c hm hle
    rw [track_blocks] at hm
    unfold DB.track at hp
    split at hp
    · rename_i hcond
      cases hp
      exact ⟨b, h.seen _ (l1At_mem hcond.2), linked_anc hl hm (by simp) hle⟩
    · rcases List.mem_append.mp hm with hm' | hm'
      · exact h.sound p hp c hm' hle
      · obtain ⟨x, hx, hle'⟩ := h.below p hp
        have := continues_fresh h.linked hc (List.mem_of_getLast? hx)
        simp at hm'
        subst hm'
        omega

/-- What a reorg does, in a chain. -/
theorem reorg_some {db db' : DB} {r : Reorg} {tail : Nat} (h : Linked db.blocks) (e : db.l2Reorg tail = some (db', r)) :
    ∃ head t, db.blocks.getLast? = some head ∧ t ∈ db.blocks ∧ t.number = tail ∧ (tail ≠ 0 → ∃ d ∈ db.blocks, d.number + 1 = tail) ∧
      db' = ⟨db.blocks.filter (fun b => b.number < tail), db.l1, reorgPointer tail db.pointer⟩ ∧ r = ⟨tail, t.hash, head.number, head.hash⟩ := by
  unfold DB.l2Reorg at e
  rw [latest_eq h] at e
  cases hx : db.blocks.getLast? with
  | none => rw [hx] at e; cases e
  | some head =>
    cases ht : db.block tail with
    | none => rw [hx, ht] at e; cases e
    | some t =>
      rw [hx, ht] at e
      simp only at e
      split at e
      · cases e
      · rename_i hc
        have e := Option.some.inj e
        obtain ⟨hm, hn⟩ := block_mem ht
        refine ⟨head, t, rfl, hm, hn, ?_, ?_, ?_⟩
        · intro h0
          cases hd : db.block (tail - 1) with
          | none => exact absurd ⟨h0, by rw [hd]; rfl⟩ hc
          | some d =>
            obtain ⟨hdm, hdn⟩ := block_mem hd
            exact ⟨d, hdm, by omega⟩
        · have e1 := (congrArg Prod.fst e).symm
          rw [reorg_filter h hx] at e1
          exact e1
        · exact (congrArg Prod.snd e).symm

theorem inv_reorg {db db' : DB} {r : Reorg} {tail : Nat} {ann : List (Nat × Hash)} (h : Inv db ann) (e : db.l2Reorg tail = some (db', r)) :
    Inv db' ann := by
  obtain ⟨head, t, hx, htm, htn, hd, rfl, _⟩ := reorg_some h.linked e
  refine ⟨filter_below h.linked tail, h.seen, ?_, ?_⟩
  · intro p hp
    simp only at hp ⊢
    cases hpt : db.pointer with
    | none => rw [hpt] at hp; cases hp
    | some q =>
      rw [hpt] at hp
      simp only [reorgPointer] at hp
      by_cases h0 : tail = 0
      · rw [if_pos h0] at hp; cases hp
      · rw [if_neg h0] at hp
        obtain ⟨d, hdm, hdn⟩ := hd h0
        refine ⟨d, by rw [← hdn]; exact last_below h.linked hdm, ?_⟩
        split at hp <;> cases hp <;> omega
  · intro p hp b hb hle
    simp only at hp hb
    obtain ⟨hbm, hbt⟩ := List.mem_filter.mp hb
    simp at hbt
    cases hpt : db.pointer with
    | none => rw [hpt] at hp; cases hp
    | some q =>
      rw [hpt] at hp
      apply h.sound q hpt b hbm
      simp only [reorgPointer] at hp
      split at hp
      · cases hp
      · split at hp <;> cases hp <;> omega

/-- The block of consensus gets the hash of the block before it. -/
theorem finalized_continues {l : List Blk} {db : DB} (hdb : db.blocks = l) (h : Linked l) {n : Nat} {x p : Hash} (hn : n = l.getLast?.elim 0 (·.number + 1))
    (hp : db.parentHash n = some p) : Continues l ⟨n, x, p⟩ := by
  unfold Continues
  cases hx : l.getLast? with
  | none => rw [hx] at hn; exact hn
  | some y =>
    rw [hx] at hn
    simp only [Option.elim_some] at hn
    refine ⟨hn, ?_⟩
    unfold DB.parentHash at hp
    rw [if_neg (by omega), hn, Nat.add_sub_cancel, block_of_mem (hdb ▸ h) (hdb ▸ List.mem_of_getLast? hx)] at hp
    exact (Option.some.inj hp).symm

/-- The four kinds of event: what they leave, when the event follows. -/
theorem handle_cases {kept : Option Nat} {s s' : Consumer} {e : Event} {note : Option Note} (h : Linked s.db.blocks) (hf : Follows s e)
    (hs : s.handle kept e = some (s', note)) :
    (∃ n x, e = .l1 n x ∧ s' = ⟨(s.db.l1Update n x).pruneL1 kept n, s.next⟩ ∧ note = none) ∨
    (s' = s ∧ note = none ∧ announced e = []) ∨
    (∃ b ok, e = .downloaded b ok ∧ Continues s.db.blocks b ∧ s.next ≤ b.number ∧ note = some (.block b) ∧
      s' = ⟨(DB.track { s.db with blocks := s.db.blocks ++ [b] } b).pruneL2 kept b.number, s.next + 1⟩) ∨
    (∃ b ok, e = .finalized b.number b.hash ok ∧ Continues s.db.blocks b ∧ s.next ≤ b.number ∧ note = some (.block b) ∧
      s' = ⟨DB.track { s.db with blocks := s.db.blocks ++ [b] } b, s.next⟩) ∨
    (∃ tail r, e = .reorg tail ∧ s.db.l2Reorg tail = some (s'.db, r) ∧ note = some (.reorg r) ∧ s'.next = tail) := by
  cases e with
  | l1 n x =>
    have := Option.some.inj hs
    exact .inl ⟨n, x, rfl, (congrArg Prod.fst this).symm, (congrArg Prod.snd this).symm⟩
  | downloaded b ok =>
    unfold Consumer.handle at hs
    simp only at hs
    split at hs
    · have := Option.some.inj hs
      exact .inr (.inl ⟨(congrArg Prod.fst this).symm, (congrArg Prod.snd this).symm, rfl⟩)
    · rename_i hlt
      have hc : Continues s.db.blocks b := hf.resolve_left hlt
      unfold DB.l2Update at hs
      cases ok with
      | false => simp at hs
      | true =>
        rw [if_pos rfl, continues_insert h hc] at hs
        have := Option.some.inj hs
        exact .inr (.inr (.inl ⟨b, true, rfl, hc, by omega, (congrArg Prod.snd this).symm, (congrArg Prod.fst this).symm⟩))
  | finalized n x ok =>
    unfold Consumer.handle at hs
    simp only at hs
    split at hs
    · have := Option.some.inj hs
      exact .inr (.inl ⟨(congrArg Prod.fst this).symm, (congrArg Prod.snd this).symm, rfl⟩)
    · rename_i hlt
      have hn := hf.resolve_left hlt
      cases hp : s.db.parentHash n with
      | none => rw [hp] at hs; cases hs
      | some p =>
        have hc := finalized_continues (x := x) rfl h hn hp
        rw [hp] at hs
        unfold DB.l2Update at hs
        cases ok with
        | false => simp at hs
        | true =>
          simp only [Option.bind_some, if_true] at hs
          rw [continues_insert h hc] at hs
          have := Option.some.inj hs
          exact .inr (.inr (.inr (.inl ⟨⟨n, x, p⟩, true, rfl, hc, by show s.next ≤ n; omega, (congrArg Prod.snd this).symm, (congrArg Prod.fst this).symm⟩)))
  | reorg tail =>
    unfold Consumer.handle at hs
    simp only at hs
    cases hr : s.db.l2Reorg tail with
    | none => rw [hr] at hs; cases hs
    | some r =>
      rw [hr] at hs
      have := Option.some.inj hs
      refine .inr (.inr (.inr (.inr ⟨tail, r.2, rfl, ?_, (congrArg Prod.snd this).symm, ?_⟩)))
      · have e1 : (⟨r.1, tail⟩ : Consumer) = s' := congrArg Prod.fst this
        rw [← e1, hr]
      · have e1 : (⟨r.1, tail⟩ : Consumer) = s' := congrArg Prod.fst this
        rw [← e1]

theorem step_handle {kept : Option Nat} {s s' : Consumer} {e : Event} (h : s.step kept e = some s') : ∃ note, s.handle kept e = some (s', note) := by
  unfold Consumer.step at h
  cases hh : s.handle kept e with
  | none => rw [hh] at h; cases h
  | some r => rw [hh] at h; exact ⟨r.2, by rw [← Option.some.inj h]⟩

theorem reorg_step {kept : Option Nat} {s s' : Consumer} {tail : Nat} (h : s.step kept (.reorg tail) = some s') :
    ∃ r, s.db.l2Reorg tail = some (s'.db, r) ∧ s'.next = tail := by
  unfold Consumer.step at h
  simp only [Consumer.handle] at h
  cases hr : s.db.l2Reorg tail with
  | none => rw [hr] at h; cases h
  | some r =>
    rw [hr] at h
    have e : (⟨r.1, tail⟩ : Consumer) = s' := Option.some.inj h
    exact ⟨r.2, by rw [← e], by rw [← e]⟩

theorem inv_handle {kept : Option Nat} {s s' : Consumer} {e : Event} {note : Option Note} {ann : List (Nat × Hash)} (h : Inv s.db ann) (hf : Follows s e)
    (hs : s.handle kept e = some (s', note)) : Inv s'.db (ann ++ announced e) := by
  rcases handle_cases h.linked hf hs with ⟨n, x, rfl, rfl, _⟩ | ⟨rfl, _, he⟩ | ⟨b, ok, rfl, hc, _, _, rfl⟩ | ⟨b, ok, rfl, hc, _, _, rfl⟩ | ⟨tail, r, rfl, hr, _, _⟩
  · have hi := inv_l1Update h n x
    obtain ⟨t, ht, e⟩ := pruneL1_cases hi.linked kept n
    show Inv ((s.db.l1Update n x).pruneL1 kept n) _
    rw [e]; exact inv_prune hi ht
  · rw [he, List.append_nil]; exact h
  · have hi := inv_insert h hc
    have hx : (DB.track { s.db with blocks := s.db.blocks ++ [b] } b).blocks.getLast? = some b := by rw [track_blocks]; simp
    obtain ⟨t, ht, e⟩ := pruneL2_cases hx kept
    show Inv ((DB.track { s.db with blocks := s.db.blocks ++ [b] } b).pruneL2 kept b.number) _
    rw [e]; exact (inv_prune hi (.inr ⟨b, hx, ht⟩)).mono []
  · exact (inv_insert h hc).mono []
  · exact (inv_reorg h hr).mono []

theorem reach_inv {kept : Option Nat} {s : Consumer} {ann : List (Nat × Hash)} (h : Reach kept s ann) : Inv s.db ann := by
  induction h with
  | init => exact inv_empty
  | step e _ hf hs ih =>
    obtain ⟨note, hh⟩ := step_handle hs
    exact inv_handle ih hf hh
  | restart _ ih => exact ih

/-- A node that keeps all blocks has the chain from block 0. -/
theorem reach_genesis {s : Consumer} {ann : List (Nat × Hash)} (h : Reach none s ann) : FromGenesis s.db.blocks := by
  induction h with
  | init => intro b hb; cases hb
  | restart _ ih => exact ih
  | step e hr hf hs ih =>
    have hl := (reach_inv hr).linked
    obtain ⟨note, hh⟩ := step_handle hs
    rcases handle_cases hl hf hh with ⟨n, x, rfl, rfl, _⟩ | ⟨rfl, _, he⟩ | ⟨b, ok, rfl, hc, _, _, rfl⟩ | ⟨b, ok, rfl, hc, _, _, rfl⟩ | ⟨tail, r, rfl, hr, _, _⟩
    · show FromGenesis (DB.l1Update _ n x).blocks
      rw [l1Update_blocks]; exact ih
    · exact ih
    · show FromGenesis (DB.track _ b).blocks
      rw [track_blocks]; exact continues_genesis ih hc
    · show FromGenesis (DB.track _ b).blocks
      rw [track_blocks]; exact continues_genesis ih hc
    · obtain ⟨_, _, _, _, _, _, e, _⟩ := reorg_some hl hr
      rw [e]; exact genesis_below hl ih tail

end Verif.Head
