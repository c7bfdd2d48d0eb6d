import Verif.Head.Inv
/-! # C46: the blocks that are shown as accepted on L1 -/
namespace Verif.Head

/-! ## An example: blocks 0 to 4, L1 accepts block 1, block 4 is taken back -/

/-- Block `i` of the example. -/
def blk (i : Nat) : Blk := ⟨i, 100 + i, 99 + i⟩

/-- The events of the example. -/
def exampleEvents : List Event :=
  [.downloaded (blk 0) true, .downloaded (blk 1) true, .l1 1 101, .downloaded (blk 2) true, .finalized 3 103 true, .downloaded (blk 4) true, .reorg 4]

/-- What comes out. -/
def exampleEnd : Consumer := ⟨⟨[blk 0, blk 1, blk 2, blk 3], [(1, 101)], some 1⟩, 4⟩

theorem example_run : (Consumer.start DB.empty).run none exampleEvents = some exampleEnd := by decide

theorem reach_example : Reach none exampleEnd [(1, 101)] := by
  have h1 : Reach none ⟨⟨[blk 0], [], none⟩, 1⟩ [] := .step (.downloaded (blk 0) true) .init (.inr rfl) (by decide)
  have h2 : Reach none ⟨⟨[blk 0, blk 1], [], none⟩, 2⟩ [] := .step (.downloaded (blk 1) true) h1 (.inr ⟨rfl, rfl⟩) (by decide)
  have h3 : Reach none ⟨⟨[blk 0, blk 1], [(1, 101)], some 1⟩, 2⟩ [(1, 101)] := .step (.l1 1 101) h2 trivial (by decide)
  have h4 : Reach none ⟨⟨[blk 0, blk 1, blk 2], [(1, 101)], some 1⟩, 3⟩ [(1, 101)] :=
    .step (.downloaded (blk 2) true) h3 (.inr ⟨rfl, rfl⟩) (by decide)
  have h5 : Reach none ⟨⟨[blk 0, blk 1, blk 2, blk 3], [(1, 101)], some 1⟩, 3⟩ [(1, 101)] :=
    .step (.finalized 3 103 true) h4 (.inr rfl) (by decide)
  have h6 : Reach none ⟨⟨[blk 0, blk 1, blk 2, blk 3, blk 4], [(1, 101)], some 1⟩, 4⟩ [(1, 101)] :=
    .step (.downloaded (blk 4) true) h5 (.inr ⟨rfl, rfl⟩) (by decide)
  exact .step (.reorg 4) h6 trivial (by decide)

/-! ## What holds -/

/-- C46: in every history, with or without pruning, a stored block that is shown as accepted on L1 is an ancestor of, or is, a block that L1 announced. -/
theorem C46_accepted {kept : Option Nat} {s : Consumer} {ann : List (Nat × Hash)} (h : Reach kept s ann) (n : Nat) (b : Blk) (hb : s.db.block n = some b)
    (ha : s.db.isAccepted n = true) : ∃ c : Blk, (c.number, c.hash) ∈ ann ∧ Anc b c := by
  unfold DB.isAccepted at ha
  cases hp : s.db.pointer with
  | none => rw [hp] at ha; cases ha
  | some p =>
    rw [hp, hb] at ha
    exact (reach_inv h).sound p hp b (block_mem hb).1 (by simpa using ha)

example : ∃ c : Blk, (c.number, c.hash) ∈ [(1, 101)] ∧ Anc (blk 0) c := C46_accepted reach_example 0 (blk 0) (by decide) (by decide)

/-- C46: the stored blocks are one chain, and the last block that is accepted on L1 is not above the head. -/
theorem C46_chain {kept : Option Nat} {s : Consumer} {ann : List (Nat × Hash)} (h : Reach kept s ann) :
    Linked s.db.blocks ∧ ∀ p, s.db.pointer = some p → ∃ head, s.db.latest = some head ∧ p ≤ head.number :=
  ⟨(reach_inv h).linked, fun p hp => by rw [latest_eq (reach_inv h).linked]; exact (reach_inv h).below p hp⟩

example : ∃ head, exampleEnd.db.latest = some head ∧ 1 ≤ head.number := (C46_chain reach_example).2 1 rfl

/-- C46: when L1 announces a block that is stored, the blocks that are accepted are those up to it. -/
theorem C46_update {kept : Option Nat} {s s' : Consumer} {ann : List (Nat × Hash)} (_h : Reach kept s ann) {b : Blk} (hb : s.db.block b.number = some b)
    (hs : s.step kept (.l1 b.number b.hash) = some s') (n : Nat) : s'.db.isAccepted n = true ↔ n ≤ b.number ∧ (s'.db.block n).isSome := by
  have e : s' = ⟨(s.db.l1Update b.number b.hash).pruneL1 kept b.number, s.next⟩ := (Option.some.inj hs).symm
  have hp : s'.db.pointer = some b.number := by
    have hl : Linked (s.db.l1Update b.number b.hash).blocks := by rw [l1Update_blocks]; exact (reach_inv _h).linked
    obtain ⟨t, _, e'⟩ := pruneL1_cases hl kept b.number
    rw [e]
    show ((s.db.l1Update b.number b.hash).pruneL1 kept b.number).pointer = some b.number
    rw [e']
    show (s.db.l1Update b.number b.hash).pointer = _
    rw [l1Update_pointer, hb]
    simp
  unfold DB.isAccepted
  rw [hp]
  cases hn : s'.db.block n with
  | none => simp
  | some c => simp [(block_mem hn).2]

example : (⟨⟨[blk 0, blk 1, blk 2], [(2, 102)], some 2⟩, 3⟩ : Consumer).db.isAccepted 1 = true := by decide
example : ∃ s', exampleEnd.step none (.l1 2 102) = some s' ∧ s'.db.isAccepted 2 = true := by
  obtain ⟨s', hs⟩ : ∃ s', exampleEnd.step none (.l1 2 102) = some s' := ⟨_, rfl⟩
  refine ⟨s', hs, (C46_update reach_example (b := blk 2) (by decide) hs 2).mpr ⟨by decide, ?_⟩⟩
  rw [← Option.some.inj hs]; decide

/-- C46: taking blocks back takes their acceptance back, and that of no other block. -/
theorem C46_reorg {kept : Option Nat} {s s' : Consumer} {ann : List (Nat × Hash)} (h : Reach kept s ann) {tail : Nat}
    (hs : s.step kept (.reorg tail) = some s') (n : Nat) : s'.db.isAccepted n = true ↔ s.db.isAccepted n = true ∧ n < tail := by
  have hl := (reach_inv h).linked
  obtain ⟨r, hr, _⟩ := reorg_step hs
  obtain ⟨head, t, hx, htm, htn, hd, e, _⟩ := reorg_some hl hr
  have hl' : Linked s'.db.blocks := by rw [e]; exact filter_below hl tail
  have hb : ∀ b : Blk, s'.db.block n = some b ↔ s.db.block n = some b ∧ n < tail := by
    intro b
    rw [block_iff hl', block_iff hl, e]
    show b ∈ List.filter _ _ ∧ _ ↔ _
    rw [List.mem_filter]
    constructor
    · rintro ⟨⟨h1, h2⟩, h3⟩
      simp at h2
      exact ⟨⟨h1, h3⟩, by omega⟩
    · rintro ⟨⟨h1, h3⟩, h2⟩
      exact ⟨⟨h1, by simp; omega⟩, h3⟩
  have hpt : s'.db.pointer = reorgPointer tail s.db.pointer := by rw [e]
  rw [isAccepted_iff, isAccepted_iff, hpt]
  constructor
  · rintro ⟨p, b, h1, h2, h3⟩
    obtain ⟨h4, h5⟩ := (hb b).mp h2
    cases hp : s.db.pointer with
    | none => rw [hp] at h1; cases h1
    | some q =>
      rw [hp] at h1
      simp only [reorgPointer] at h1
      refine ⟨⟨q, b, rfl, h4, ?_⟩, h5⟩
      split at h1
      · cases h1
      · split at h1 <;> have := Option.some.inj h1 <;> omega
  · rintro ⟨⟨p, b, h1, h2, h3⟩, h4⟩
    rw [h1]
    simp only [reorgPointer]
    rw [if_neg (by omega)]
    split
    · exact ⟨_, b, rfl, (hb b).mpr ⟨h2, h4⟩, by omega⟩
    · exact ⟨_, b, rfl, (hb b).mpr ⟨h2, h4⟩, h3⟩

example : ∃ s', exampleEnd.step none (.reorg 1) = some s' ∧ s'.db.isAccepted 0 = true ∧ s'.db.isAccepted 1 = false := by
  refine ⟨⟨⟨[blk 0], [(1, 101)], some 0⟩, 1⟩, by decide, ?_, by decide⟩
  exact (C46_reorg reach_example (tail := 1) (by decide) 0).mpr ⟨by decide, by decide⟩

/-- C46, for a node that keeps all blocks: the last block accepted on L1 is stored, and it is an ancestor of a block that L1 announced. Missing: nodes that
prune (`C46_pruned_violated`), and the sync from peers (`C46_anchor_violated`). -/
theorem C46_stored_partial {s : Consumer} {ann : List (Nat × Hash)} (h : Reach none s ann) (p : Nat) (hp : s.db.pointer = some p) :
    ∃ b : Blk, s.db.acceptedBlock = some (some b) ∧ b.number = p ∧ ∃ c : Blk, (c.number, c.hash) ∈ ann ∧ Anc b c := by
  have hi := reach_inv h
  obtain ⟨x, hx, hle⟩ := hi.below p hp
  obtain ⟨b, hb, hn⟩ := mem_genesis hi.linked (reach_genesis h) (List.mem_of_getLast? hx) hle
  refine ⟨b, ?_, hn, hi.sound p hp b hb (by omega)⟩
  unfold DB.acceptedBlock
  rw [hp, Option.map_some, (block_iff hi.linked p b).mpr ⟨hb, hn⟩]

example : ∃ b : Blk, exampleEnd.db.acceptedBlock = some (some b) ∧ b.number = 1 ∧ ∃ c : Blk, (c.number, c.hash) ∈ [(1, 101)] ∧ Anc b c :=
  C46_stored_partial reach_example 1 rfl

/-! ## What does not hold -/

/-- The state of a node that saw one announcement and stored `pre`. -/
theorem catchup_run {N : Nat} {h : Hash} (hN : N ≠ 0) : ∀ (l pre : List Blk), Linked (pre ++ l) → FromGenesis (pre ++ l) →
    (⟨⟨pre, [(N, h)], none⟩, pre.length⟩ : Consumer).run none (l.map fun b => .downloaded b true) = some ⟨⟨pre ++ l, [(N, h)], none⟩, (pre ++ l).length⟩ := by
  intro l
  induction l with
  | nil => intro pre _ _; simp [Consumer.run]
  | cons b l ih =>
    intro pre hl hg
    have hnum : ∀ (i : Nat) (c : Blk), (pre ++ b :: l)[i]? = some c → c.number = i := by
      intro i c hc
      cases hcs : pre ++ b :: l with
      | nil => rw [hcs] at hc; simp at hc
      | cons a m =>
        rw [hcs] at hc hl
        have := linked_get hl i c hc
        have := hg a (by rw [hcs]; rfl)
        omega
    have hb : b.number = pre.length := hnum pre.length b (by simp)
    have hfresh : (⟨pre, [(N, h)], none⟩ : DB).block b.number = none := by
      cases hf : (⟨pre, [(N, h)], none⟩ : DB).block b.number with
      | none => rfl
      | some c =>
        obtain ⟨hm, hn⟩ := block_mem hf
        obtain ⟨i, hi, rfl⟩ := List.mem_iff_getElem.mp hm
        have := hnum i _ (by rw [List.getElem?_append_left hi]; exact List.getElem?_eq_getElem hi)
        have h2 : pre[i].number = b.number := hn
        have h3 : i < pre.length := hi
        have h4 : pre[i].number = i := this
        omega
    have hstep : (⟨⟨pre, [(N, h)], none⟩, pre.length⟩ : Consumer).step none (.downloaded b true)
        = some ⟨⟨pre ++ [b], [(N, h)], none⟩, (pre ++ [b]).length⟩ := by
      unfold Consumer.step Consumer.handle DB.l2Update DB.insert
      simp only [if_true]
      rw [if_neg (by omega), hfresh]
      have : ¬ (Option.elim (none : Option Nat) 0 (· + 1) = b.number ∧
          DB.l1At ⟨pre ++ [b], [(N, h)], none⟩ b.number = some b.hash) := by
        rintro ⟨h0, h1⟩
        have h0 : b.number = 0 := h0.symm
        rw [h0] at h1
        have hNe : (N == 0) = false := by simp [hN]
        simp [DB.l1At, hNe] at h1
      have ht : DB.track ⟨pre ++ [b], [(N, h)], none⟩ b = ⟨pre ++ [b], [(N, h)], none⟩ := by
        unfold DB.track
        exact if_neg this
      simp only [Option.isSome_none, Bool.false_eq_true, if_false, Option.map_some, ht, DB.pruneL2, List.length_append, List.length_singleton]
    have hrun : (⟨⟨pre, [(N, h)], none⟩, pre.length⟩ : Consumer).run none ((b :: l).map fun b => .downloaded b true) =
        (⟨⟨pre ++ [b], [(N, h)], none⟩, (pre ++ [b]).length⟩ : Consumer).run none (l.map fun b => .downloaded b true) := by
      rw [List.map_cons, Consumer.run, hstep]; rfl
    rw [hrun, ih (pre ++ [b]) (by simpa using hl) (by simpa using hg)]
    simp

/-- C46 is violated for blocks that are announced before they are stored. A new node is told the state of L1 first. It then downloads the chain, in which the
announced block is. No block is shown as accepted, whatever the chain. -/
theorem C46_late_violated {chain : List Blk} (hl : Linked chain) (hg : FromGenesis chain) {b : Blk} (_hb : b ∈ chain) (h0 : b.number ≠ 0) :
    ∃ s : Consumer, (Consumer.start DB.empty).run none (.l1 b.number b.hash :: chain.map fun c => .downloaded c true) = some s ∧
      s.db.blocks = chain ∧ s.db.acceptedBlock = none ∧ ∀ n, s.db.isAccepted n = false := by
  have := catchup_run (h := b.hash) h0 chain [] hl hg
  exact ⟨_, this, rfl, rfl, fun n => rfl⟩

example : ∃ s : Consumer, (Consumer.start DB.empty).run none (.l1 2 102 :: [blk 0, blk 1, blk 2, blk 3].map fun c => .downloaded c true) = some s ∧
    s.db.blocks = [blk 0, blk 1, blk 2, blk 3] ∧ s.db.acceptedBlock = none ∧ ∀ n, s.db.isAccepted n = false :=
  C46_late_violated (b := blk 2) (by simp [Linked, Next, blk]) (by intro b hb; simp at hb; subst hb; rfl) (by simp) (by decide)

/-- C46 is violated when pruning: L1 accepts block 1, and then announces block 4 before it is stored. As blocks are stored the old ones are removed, and the
last accepted block stays block 1, which is gone. -/
theorem C46_pruned_violated : ∃ s : Consumer,
    (Consumer.start DB.empty).run (some 1) [.downloaded (blk 0) true, .downloaded (blk 1) true, .l1 1 101, .l1 4 104, .downloaded (blk 2) true,
      .downloaded (blk 3) true, .downloaded (blk 4) true] = some s ∧ s.db.latest = some (blk 4) ∧ s.db.acceptedBlock = some none :=
  ⟨⟨⟨[blk 3, blk 4], [(4, 104), (1, 101)], some 1⟩, 5⟩, by decide, by decide, by decide⟩

/-- C46 is violated at the start of the sync from peers: the anchor is the last accepted block before it is stored. -/
theorem C46_anchor_violated (db : DB) (n : Nat) (h : Hash) (hn : db.block n = none) : (db.persistAnchor n h).acceptedBlock = some none := by
  show some (db.block n) = some none
  rw [hn]

example : (DB.empty.persistAnchor 7 107).acceptedBlock = some none := C46_anchor_violated DB.empty 7 107 rfl

/-- C46 does not hold in time: an announcement of an earlier block takes acceptance back, although no block was taken back. -/
theorem C46_back_violated {kept : Option Nat} {s s' : Consumer} {ann : List (Nat × Hash)} (h : Reach kept s ann) {b : Blk} (hb : s.db.block b.number = some b)
    (n : Nat) (hn : b.number < n) (_ha : s.db.isAccepted n = true) (hs : s.step kept (.l1 b.number b.hash) = some s') : s'.db.isAccepted n = false := by
  cases e : s'.db.isAccepted n with
  | false => rfl
  | true => have := ((C46_update h hb hs n).mp e).1; omega

example : ∃ s', exampleEnd.step none (.l1 0 100) = some s' ∧ exampleEnd.db.isAccepted 1 = true ∧ s'.db.isAccepted 1 = false :=
  ⟨_, rfl, by decide, C46_back_violated (kept := none) reach_example (b := blk 0) (by decide) 1 (by decide) (by decide) rfl⟩

end Verif.Head
