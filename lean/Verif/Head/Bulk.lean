import Verif.Head.SysProps
/-! # C73: catching up with many downloads at once -/
namespace Verif.Head

/-- The blocks to emit have consecutive numbers. -/
theorem emittable_numbers : ∀ (start : Nat) (l : List Blk), (l.take (emittable start l)).map (·.number) = List.range' start (emittable start l)
  | _, [] => by simp [emittable]
  | start, b :: l => by
    unfold emittable
    split
    · rename_i h
      simp [List.range'_succ, h, emittable_numbers (start + 1) l]
    · simp

theorem emittable_le : ∀ (start : Nat) (l : List Blk), emittable start l ≤ l.length
  | _, [] => by simp [emittable]
  | start, b :: l => by
    unfold emittable
    split
    · simp; exact emittable_le (start + 1) l
    · omega

/-- After the emission nothing more can be emitted. -/
theorem emittable_drop : ∀ (start : Nat) (l : List Blk), emittable (start + emittable start l) (l.drop (emittable start l)) = 0
  | _, [] => by simp [emittable]
  | start, b :: l => by
    by_cases h : b.number = start
    · have e : emittable start (b :: l) = emittable (start + 1) l + 1 := by
        conv => lhs; unfold emittable
        rw [if_pos h]
      rw [e, List.drop_succ_cons, show start + (emittable (start + 1) l + 1) = start + 1 + emittable (start + 1) l by omega]
      exact emittable_drop (start + 1) l
    · have e : emittable start (b :: l) = 0 := by
        unfold emittable
        rw [if_neg h]
      rw [e]
      exact e

/-- What is emitted is a chain; and when the emission does not stop, it is all, and the last block is the head. -/
theorem emit_chains : ∀ (l : List Blk) (start : Nat) (head : Option (Nat × Hash)), l.map (·.number) = List.range' start l.length →
    Chains (head.map (·.2)) start (emit l head).1 ∧ (∀ b ∈ (emit l head).1, b ∈ l) ∧
      ((emit l head).2.2 = false → (emit l head).1 = l ∧ ∀ l', Chains ((emit l head).2.1.map (·.2)) (start + l.length) l' → Chains (head.map (·.2)) start (l ++ l'))
  | [], start, head, _ => by simp [emit, Chains]
  | b :: l, start, head, hn => by
    rw [List.map_cons, List.length_cons, List.range'_succ] at hn
    obtain ⟨h1, h2⟩ := List.cons.inj hn
    unfold emit
    split
    · simp [Chains]
    · rename_i hp
      obtain ⟨h3, h4, h5⟩ := emit_chains l (start + 1) (some (b.number, b.hash)) h2
      have hpar : ∀ x, head.map (·.2) = some x → b.parent = x := by
        intro x hx
        cases head with
        | none => cases hx
        | some y =>
          simp at hp hx
          rw [← hx, hp]
      refine ⟨⟨h1, hpar, h3⟩, ?_, ?_⟩
      · intro c hc
        rcases List.mem_cons.mp hc with rfl | hc
        · simp
        · exact List.mem_cons_of_mem _ (h4 c hc)
      · intro hs
        obtain ⟨h6, h7⟩ := h5 hs
        refine ⟨by simp only [h6], fun l' hl' => ⟨h1, hpar, h7 l' ?_⟩⟩
        rw [List.length_cons] at hl'
        rw [show start + 1 + l.length = start + (l.length + 1) by omega]
        exact hl'

theorem insertSorted_mem {b c : Blk} : ∀ {l : List Blk}, c ∈ insertSorted b l → c = b ∨ c ∈ l
  | [], h => by simp [insertSorted] at h; exact .inl h
  | d :: l, h => by
    unfold insertSorted at h
    split at h
    · rcases List.mem_cons.mp h with h | h
      · exact .inl h
      · exact .inr h
    · split at h
      · rcases List.mem_cons.mp h with h | h
        · exact .inl h
        · exact .inr (List.mem_cons_of_mem _ h)
      · rcases List.mem_cons.mp h with h | h
        · exact .inr (by rw [h]; simp)
        · rcases insertSorted_mem h with h | h
          · exact .inl h
          · exact .inr (List.mem_cons_of_mem _ h)

theorem take_numbers (start : Nat) (l : List Blk) :
    (l.take (emittable start l)).map (·.number) = List.range' start (l.take (emittable start l)).length := by
  rw [emittable_numbers, List.length_take, Nat.min_eq_left (emittable_le start l)]

/-- C73: in whatever order the downloads end, and whatever they give, the blocks that are passed on have consecutive numbers from the next one, each is the parent
of the one after it, the first follows on the head, and each was downloaded. -/
theorem C73_bulk (s : Bulk) (rs : List (Option Blk)) : Chains (s.head.map (·.2)) s.start (s.run rs) ∧
    ∀ b ∈ s.run rs, some b ∈ rs ∨ b ∈ s.waiting := by
  induction rs generalizing s with
  | nil => exact ⟨trivial, fun b hb => by cases hb⟩
  | cons r rs ih =>
    cases r with
    | none => exact ⟨trivial, fun b hb => by cases hb⟩
    | some b =>
      obtain ⟨h1, h2, h3⟩ := emit_chains _ s.start s.head (take_numbers s.start (insertSorted b s.waiting))
      have hmem : ∀ c ∈ (emit ((insertSorted b s.waiting).take (emittable s.start (insertSorted b s.waiting))) s.head).1,
          some c ∈ some b :: rs ∨ c ∈ s.waiting := by
        intro c hc
        rcases insertSorted_mem (List.mem_of_mem_take (h2 c hc)) with rfl | h
        · exact .inl (by simp)
        · exact .inr h
      unfold Bulk.run
      simp only
      split
      · exact ⟨h1, hmem⟩
      · rename_i hs
        have hs : (emit ((insertSorted b s.waiting).take (emittable s.start (insertSorted b s.waiting))) s.head).2.2 = false := by
          revert hs; cases (emit _ _).2.2 <;> simp
        obtain ⟨h4, h5⟩ := h3 hs
        obtain ⟨h6, h7⟩ := ih ⟨s.start + emittable s.start (insertSorted b s.waiting),
          (insertSorted b s.waiting).drop (emittable s.start (insertSorted b s.waiting)), (emit _ s.head).2.1⟩
        refine ⟨?_, ?_⟩
        · rw [h4]
          apply h5
          rw [List.length_take, Nat.min_eq_left (emittable_le _ _)]
          exact h6
        · intro c hc
          rcases List.mem_append.mp hc with hc | hc
          · exact hmem c hc
          · rcases h7 c hc with h | h
            · exact .inl (List.mem_cons_of_mem _ h)
            · rcases insertSorted_mem (List.mem_of_mem_drop h) with rfl | h
              · exact .inl (by simp)
              · exact .inr h

example : Chains (some 100) 1 ((⟨1, [], some (0, 100)⟩ : Bulk).run [some (blk 3), some (blk 1), none, some (blk 2)]) :=
  (C73_bulk ⟨1, [], some (0, 100)⟩ [some (blk 3), some (blk 1), none, some (blk 2)]).1
example : (⟨1, [], some (0, 100)⟩ : Bulk).run [some (blk 3), some (blk 1), none, some (blk 2)] = [blk 1] := by decide

/-! ## Nothing is lost -/

/-- Sorted by number. -/
abbrev Sorted (l : List Blk) : Prop := l.Pairwise fun a b => a.number < b.number

theorem insertSorted_perm {b : Blk} : ∀ {l : List Blk}, (∀ c ∈ l, c.number ≠ b.number) → (insertSorted b l).Perm (b :: l)
  | [], _ => .refl _
  | d :: l, h => by
    unfold insertSorted
    split
    · exact .refl _
    · rw [if_neg (fun e => h d (by simp) e.symm)]
      exact ((insertSorted_perm fun c hc => h c (by simp [hc])).cons d).trans (.swap b d l)

theorem insertSorted_sorted {b : Blk} : ∀ {l : List Blk}, Sorted l → (∀ c ∈ l, c.number ≠ b.number) → Sorted (insertSorted b l)
  | [], _, _ => by simp [insertSorted]
  | d :: l, hs, h => by
    have hs := List.pairwise_cons.mp hs
    unfold insertSorted
    split
    · rename_i hlt
      refine List.pairwise_cons.mpr ?_
      refine ⟨?_, List.pairwise_cons.mpr hs⟩
      intro c hc
      rcases List.mem_cons.mp hc with rfl | hc
      · exact hlt
      · have := hs.1 c hc; omega
    · rename_i hlt
      have hne := h d (by simp)
      rw [if_neg (fun e => hne e.symm)]
      refine List.pairwise_cons.mpr ?_
      refine ⟨?_, insertSorted_sorted hs.2 fun c hc => h c (by simp [hc])⟩
      intro c hc
      rcases insertSorted_mem hc with rfl | hc
      · omega
      · exact hs.1 c hc

theorem chains_number : ∀ {l : List Blk} {h : Option Hash} {n : Nat}, Chains h n l → l.map (·.number) = List.range' n l.length
  | [], _, _, _ => rfl
  | b :: l, h, n, hc => by
    rw [List.map_cons, List.length_cons, List.range'_succ, hc.1, chains_number hc.2.2]

theorem chains_sorted {l : List Blk} {h : Option Hash} {n : Nat} (hc : Chains h n l) : Sorted l := by
  have h1 := chains_number hc
  have h2 : (l.map (·.number)).Pairwise (· < ·) := by rw [h1]; exact List.pairwise_lt_range'
  exact List.pairwise_map.mp h2

theorem chains_drop : ∀ (k : Nat) {l : List Blk} {h : Option Hash} {n : Nat}, Chains h n l → ∃ h', Chains h' (n + k) (l.drop k)
  | 0, l, h, n, hc => ⟨h, hc⟩
  | k + 1, [], h, n, _ => ⟨none, by simp [Chains]⟩
  | k + 1, b :: l, h, n, hc => by
    obtain ⟨h', hd⟩ := chains_drop k hc.2.2
    exact ⟨h', by rw [show n + (k + 1) = n + 1 + k by omega]; exact hd⟩

/-- The emission of a chain does not stop. -/
theorem emit_chain : ∀ {l : List Blk} {head : Option (Nat × Hash)} {n : Nat} (l' : List Blk), Chains (head.map (·.2)) n (l ++ l') →
    (emit l head).1 = l ∧ (emit l head).2.2 = false ∧ Chains ((emit l head).2.1.map (·.2)) (n + l.length) l'
  | [], head, n, l', h => ⟨rfl, rfl, h⟩
  | b :: l, head, n, l', h => by
    have hp : (head.any fun h => h.2 != b.parent) = false := by
      cases head with
      | none => rfl
      | some x => have := h.2.1 x.2 rfl; simp [this]
    obtain ⟨h1, h2, h3⟩ := emit_chain (head := some (b.number, b.hash)) l' h.2.2
    unfold emit
    rw [hp]
    simp only [Bool.false_eq_true, if_false]
    refine ⟨by rw [h1], h2, ?_⟩
    rw [List.length_cons, show n + (l.length + 1) = n + 1 + l.length by omega]
    exact h3

/-- A sorted list of blocks of a chain: what can be emitted is the beginning of the chain. -/
theorem take_emittable : ∀ {w rest : List Blk} {h : Option Hash} {n : Nat}, Chains h n rest → Sorted w → (∀ b ∈ w, b ∈ rest) →
    w.take (emittable n w) = rest.take (emittable n w)
  | [], rest, h, n, _, _, _ => by simp [emittable]
  | b :: w, [], h, n, _, _, hm => by have := hm b (by simp); cases this
  | b :: w, c :: rest, h, n, hc, hs, hm => by
    have hs := List.pairwise_cons.mp hs
    unfold emittable
    split
    · rename_i hb
      have hsort := List.pairwise_cons.mp (chains_sorted hc)
      have hbc : b = c := by
        rcases List.mem_cons.mp (hm b (by simp)) with h | h
        · exact h
        · have := hsort.1 b h
          have := hc.1
          omega
      subst hbc
      rw [List.take_succ_cons, List.take_succ_cons, take_emittable hc.2.2 hs.2]
      intro d hd
      have := hs.1 d hd
      rcases List.mem_cons.mp (hm d (by simp [hd])) with h | h
      · subst h; omega
      · exact h
    · simp

theorem bulk_all : ∀ (rs : List Blk) (s : Bulk) (rest : List Blk), Chains (s.head.map (·.2)) s.start rest → Sorted s.waiting → (s.waiting ++ rs).Perm rest →
    emittable s.start s.waiting = 0 → s.run (rs.map some) = rest := by
  intro rs
  induction rs with
  | nil =>
    intro s rest hc hs hp he
    rw [List.append_nil] at hp
    cases rest with
    | nil => rfl
    | cons c rest =>
      exfalso
      have hmem : c ∈ s.waiting := hp.mem_iff.mpr (by simp)
      cases hw : s.waiting with
      | nil => rw [hw] at hmem; cases hmem
      | cons b w =>
        rw [hw] at he hs hp hmem
        have hsort := List.pairwise_cons.mp (chains_sorted hc)
        have hbn : b.number = s.start := by
          have hb : b ∈ c :: rest := hp.mem_iff.mp (by simp)
          rcases List.mem_cons.mp hb with h | h
          · rw [h]; exact hc.1
          · have h1 := hsort.1 b h
            rcases List.mem_cons.mp hmem with h2 | h2
            · subst h2; omega
            · have := (List.pairwise_cons.mp hs).1 c h2; omega
        unfold emittable at he
        rw [if_pos hbn] at he
        omega
  | cons b rs ih =>
    intro s rest hc hs hp he
    have hnd : Sorted rest := chains_sorted hc
    -- The new block has a number that no waiting block has.
    have hne : ∀ c ∈ s.waiting, c.number ≠ b.number := by
      intro c hcw
      have hnn : ((s.waiting ++ b :: rs).map (·.number)).Nodup := by
        rw [(hp.map _).nodup_iff]
        rw [chains_number hc]
        exact List.nodup_range'
      rw [List.map_append, List.nodup_append] at hnn
      exact hnn.2.2 c.number (List.mem_map.mpr ⟨c, hcw, rfl⟩) b.number (by simp)
    have hs' := insertSorted_sorted hs hne
    have hperm : (insertSorted b s.waiting ++ rs).Perm rest :=
      ((insertSorted_perm hne).append_right rs).trans ((List.perm_middle.symm).trans hp)
    have htake := take_emittable hc hs' (fun c hcw => hperm.mem_iff.mp (List.mem_append_left _ hcw))
    have hk := emittable_le s.start (insertSorted b s.waiting)
    have hkr : (rest.take (emittable s.start (insertSorted b s.waiting))).length = emittable s.start (insertSorted b s.waiting) := by
      rw [← htake, List.length_take, Nat.min_eq_left hk]
    obtain ⟨h1, h2, h3⟩ := emit_chain (l := rest.take (emittable s.start (insertSorted b s.waiting)))
      (rest.drop (emittable s.start (insertSorted b s.waiting))) (by rw [List.take_append_drop]; exact hc)
    rw [hkr] at h3
    rw [List.map_cons]
    unfold Bulk.run
    simp only
    rw [htake, h2, h1]
    simp only [Bool.false_eq_true, if_false]
    rw [ih ⟨_, _, _⟩ (rest.drop (emittable s.start (insertSorted b s.waiting))) h3 (hs'.sublist (List.drop_sublist _ _)) ?_ (emittable_drop _ _)]
    · exact List.take_append_drop _ _
    · show ((insertSorted b s.waiting).drop _ ++ rs).Perm _
      have h4 : ((insertSorted b s.waiting).take (emittable s.start (insertSorted b s.waiting)) ++
          ((insertSorted b s.waiting).drop (emittable s.start (insertSorted b s.waiting)) ++ rs)).Perm
          (rest.take (emittable s.start (insertSorted b s.waiting)) ++ rest.drop (emittable s.start (insertSorted b s.waiting))) := by
        rw [← List.append_assoc, List.take_append_drop, List.take_append_drop]
        exact hperm
      rw [htake] at h4
      exact (List.perm_append_left_iff _).mp h4

/-- C73: when every download gives a block of one chain that follows on the head, all of its blocks are passed on, in order, in whatever order the downloads
end. -/
theorem C73_bulk_complete (chain : List Blk) (start : Nat) (head : Option (Nat × Hash)) (hc : Chains (head.map (·.2)) start chain) (rs : List Blk)
    (hp : rs.Perm chain) : (⟨start, [], head⟩ : Bulk).run (rs.map some) = chain :=
  bulk_all rs ⟨start, [], head⟩ chain hc .nil hp rfl

example : (⟨1, [], some (0, 100)⟩ : Bulk).run ([blk 3, blk 1, blk 2].map some) = [blk 1, blk 2, blk 3] :=
  C73_bulk_complete _ _ _ (by simp [Chains, blk]) _ (List.isPerm_iff.mp (by decide))

/-- C73: what is passed on while catching up is what the gateway could give block by block, so that `C73_system_partial` is about it too. -/
theorem C73_bulk_rounds {race : Bool} {c : Consumer} : ∀ (l : List Blk) (p : Producer) (q : List Event), Sys.Reach race ⟨p, q, c⟩ →
    Chains (p.head.map (·.2)) p.next l → ∃ p', Sys.Reach race ⟨p', q ++ l.map (fun b => .downloaded b true), c⟩ ∧
      p'.head = (l.getLast?.map fun b => (b.number, b.hash)).or p.head
  | [], p, q, h, _ => ⟨p, by simpa using h, by simp⟩
  | b :: l, p, q, h, hc => by
    have h1 := round_block h b false hc.1 hc.2.1
    obtain ⟨p', h2, h3⟩ := C73_bulk_rounds l _ _ h1 hc.2.2
    refine ⟨p', by simpa using h2, ?_⟩
    rw [h3]
    cases l with
    | nil => simp [hc.1]
    | cons d l =>
      rw [List.getLast?_cons_cons]
      cases hl : (d :: l).getLast? with
      | none => simp at hl
      | some x => simp

example : ∃ p', Sys.Reach false ⟨p', [.downloaded (blk 1) true, .downloaded (blk 2) true], node0.consumer⟩ ∧ p'.head = some (2, 102) :=
  C73_bulk_rounds [blk 1, blk 2] node0.producer [] (reach_node0 false) (by simp [Chains, blk, node0, Producer.next])

end Verif.Head
