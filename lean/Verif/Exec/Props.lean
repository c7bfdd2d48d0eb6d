import Verif.Exec.NodeLemmas

/-!
C76: executing on top of a block reads the state after that block.
-/

namespace Verif.Exec
open Spec

/-! ### Contract state on top of decided blocks -/

/-- A storage read gives the value of the last block that sets the slot. -/
theorem C76_storage {chain : List Blk} {n : Nat} {db : Db} {d : Decided} (hv : OnTop chain n db d)
    (wf : ∀ b ∈ chain, Wf b) (a k : Nat) :
    Last (chain.take (n + 1)) (SetsSlot a k) (getStorageAt db d (some n) a k) := by
  show Last _ _ ((storageValue db d n a k).getD 0)
  have e : storageValue db d n a k = (chain.take (n + 1)).reverse.findSome? fun b => b.slot a k := by
    rw [← read_chain hv]
    unfold storageValue decidedStorage Db.storageValue
    congr 1
    have : ∀ l : List (Nat × Blk), (∀ p ∈ l, p ∈ d) →
        (l.findSome? fun p =>
          (((p.2.contracts.map fun q => (q.1, q.2.storage)) ++ p.2.system).lookup a).bind
            fun s => s.lookup k) = l.findSome? fun p => p.2.slot a k := by
      intro l
      induction l with
      | nil => intro _; rfl
      | cons p l ih =>
        intro h
        rw [List.findSome?_cons, List.findSome?_cons, ih fun q hq => h q (List.mem_cons_of_mem _ hq)]
        rw [decided_slot (wf p.2 (List.mem_of_getElem? (hv.agree p (h p List.mem_cons_self))))]
    exact this _ fun p hp => (mem_revBlocks.mp hp).1
  rw [e]
  exact last_of_newest _ _ fun b hb v => slot_iff (wf b (List.mem_of_mem_take hb)) a k v

/-- A nonce read gives the nonce of the last block that sets it, if no decided block that touches
the contract without setting its nonce comes after a decided block that does set it.
Missing: the condition, see `C76_nonce_violated`. -/
theorem C76_nonce_partial {chain : List Blk} {n : Nat} {db : Db} {d : Decided}
    (hv : OnTop chain n db d) (wf : ∀ b ∈ chain, Wf b) (a : Nat)
    (hm : ∀ p ∈ d, p.1 ≤ n → ∀ u, (a, u) ∈ p.2.contracts → u.nonce = none →
      ∀ q ∈ d, q.1 < p.1 → ∀ v, ¬ SetsNonce a q.2 v) :
    Last (chain.take (n + 1)) (SetsNonce a) (getNonceAt db d (some n) a) := by
  show Last _ _ ((contractNonce db d n a).getD 0)
  have e : contractNonce db d n a = (chain.take (n + 1)).reverse.findSome? fun b => b.nonce a := by
    rw [← read_chain hv]
    unfold contractNonce decidedNonce Db.contractNonce Blk.nonce
    congr 1
    refine masked_eq hv.ascending n a _ ?_
    intro p hp hle u hu hg q hq hlt
    cases hq' : (q.2.contracts.lookup a).bind (·.nonce) with
    | none => rfl
    | some v =>
      refine absurd ?_ (hm p hp hle u (mem_of_lookup hu) hg q hq hlt v)
      exact (nonce_iff (wf q.2 (List.mem_of_getElem? (hv.agree q hq))) a v).mp hq'
  rw [e]
  exact last_of_newest _ _ fun b hb v => nonce_iff (wf b (List.mem_of_mem_take hb)) a v

/-- The class of a contract is the one of the last block that sets it, under the same condition.
Missing: the condition, see `C76_class_hash_violated`. -/
theorem C76_class_hash_partial {chain : List Blk} {n : Nat} {db : Db} {d : Decided}
    (hv : OnTop chain n db d) (wf : ∀ b ∈ chain, Wf b) (a : Nat)
    (hm : ∀ p ∈ d, p.1 ≤ n → ∀ u, (a, u) ∈ p.2.contracts → u.cls = none →
      ∀ q ∈ d, q.1 < p.1 → ∀ v, ¬ SetsClass a q.2 v) :
    Last (chain.take (n + 1)) (SetsClass a) (getClassHashAt db d (some n) a) := by
  show Last _ _ ((contractClassHash db d n a).getD 0)
  have e : contractClassHash db d n a =
      (chain.take (n + 1)).reverse.findSome? fun b => b.cls a := by
    rw [← read_chain hv]
    unfold contractClassHash decidedClassHash Db.contractClassHash Blk.cls
    congr 1
    refine masked_eq hv.ascending n a _ ?_
    intro p hp hle u hu hg q hq hlt
    have hg' : u.cls = none := by
      cases h : u.cls with
      | none => rfl
      | some c => rw [h] at hg; cases hg
    cases hq' : (q.2.contracts.lookup a).bind fun u => u.cls.map (·.hash) with
    | none => rfl
    | some v =>
      refine absurd ?_ (hm p hp hle u (mem_of_lookup hu) hg' q hq hlt v)
      exact (cls_iff (wf q.2 (List.mem_of_getElem? (hv.agree q hq))) a v).mp hq'
  rw [e]
  exact last_of_newest _ _ fun b hb v => cls_iff (wf b (List.mem_of_mem_take hb)) a v

/-- When the newest decided block that touches a contract leaves its nonce alone, the nonces of
all decided blocks are ignored. -/
theorem C76_nonce_masked {chain : List Blk} {n : Nat} {db : Db} {d : Decided}
    (hv : OnTop chain n db d) (wf : ∀ b ∈ chain, Wf b) (a : Nat) {p : Nat × Blk} (hp : p ∈ d)
    (hle : p.1 ≤ n) {u : CU} (hu : (a, u) ∈ p.2.contracts) (hn : u.nonce = none)
    (hl : ∀ q ∈ d, p.1 < q.1 → q.1 ≤ n → ∀ u, (a, u) ∉ q.2.contracts) :
    Last (db.blocks.take (n + 1)) (SetsNonce a) (getNonceAt db d (some n) a) := by
  have wfp := wf p.2 (List.mem_of_getElem? (hv.agree p hp))
  show Last _ _ ((contractNonce db d n a).getD 0)
  have e : contractNonce db d n a =
      (db.blocks.take (n + 1)).reverse.findSome? fun b => b.nonce a := by
    unfold contractNonce decidedNonce
    rw [masked_none hv.ascending n a _ hp hle (lookup_of_mem wfp.contracts hu) hn
      fun q hq h1 h2 => lookup_none_iff.mpr (hl q hq h1 h2), Option.none_or]
    rfl
  rw [e]
  refine last_of_newest _ _ fun b hb v => nonce_iff (wf b ?_) a v
  have hb' := List.mem_of_mem_take hb
  rw [hv.stored] at hb'
  exact List.mem_of_mem_take hb'

/-- The same for the class of the contract. -/
theorem C76_class_hash_masked {chain : List Blk} {n : Nat} {db : Db} {d : Decided}
    (hv : OnTop chain n db d) (wf : ∀ b ∈ chain, Wf b) (a : Nat) {p : Nat × Blk} (hp : p ∈ d)
    (hle : p.1 ≤ n) {u : CU} (hu : (a, u) ∈ p.2.contracts) (hn : u.cls = none)
    (hl : ∀ q ∈ d, p.1 < q.1 → q.1 ≤ n → ∀ u, (a, u) ∉ q.2.contracts) :
    Last (db.blocks.take (n + 1)) (SetsClass a) (getClassHashAt db d (some n) a) := by
  have wfp := wf p.2 (List.mem_of_getElem? (hv.agree p hp))
  show Last _ _ ((contractClassHash db d n a).getD 0)
  have e : contractClassHash db d n a =
      (db.blocks.take (n + 1)).reverse.findSome? fun b => b.cls a := by
    unfold contractClassHash decidedClassHash
    rw [masked_none hv.ascending n a _ hp hle (lookup_of_mem wfp.contracts hu) (by rw [hn]; rfl)
      fun q hq h1 h2 => lookup_none_iff.mpr (hl q hq h1 h2), Option.none_or]
    rfl
  rw [e]
  refine last_of_newest _ _ fun b hb v => cls_iff (wf b ?_) a v
  have hb' := List.mem_of_mem_take hb
  rw [hv.stored] at hb'
  exact List.mem_of_mem_take hb'

/-! ### Schedules -/

/-- While the node runs and every block comes from consensus, a running execution on top of block
`n` reads the storage after the blocks agreed on up to `n`, as long as no commit confirmation was
processed for a block that the execution's database transaction does not see.
Missing: that condition, and blocks fetched from the gateway; see `C76_stale_violated` and
`C76_gap_violated`. -/
theorem C76_running_partial {agreed : Nat → Blk} {s : Node} (r : Reach agreed s) {n : Nat}
    {snap : List Blk} (hr : s.reader = some (n, snap)) (hc : s.confirmed ≤ snap.length)
    (wf : ∀ m, Wf (agreed m)) (defs : Nat → Option (Nat × Option Nat)) (a k : Nat) :
    Last ((List.range (n + 1)).map agreed) (SetsSlot a k)
      (getStorageAt { blocks := snap, defs } s.decided (some n) a k) := by
  obtain ⟨top, hn, hv⟩ := reader_onTop r hr hc defs
  have := C76_storage hv (fun b hb => by
    obtain ⟨m, _, rfl⟩ := List.mem_map.mp hb
    exact wf m) a k
  rw [chainTo_take agreed (by omega)] at this
  exact this

/-- A new execution meets the condition. -/
theorem C76_started {agreed : Nat → Blk} {s : Node} (r : Reach agreed s) {n : Nat}
    (hn : s.known n) (wf : ∀ m, Wf (agreed m)) (defs : Nat → Option (Nat × Option Nat))
    (a k : Nat) :
    Last ((List.range (n + 1)).map agreed) (SetsSlot a k)
      (getStorageAt { blocks := s.blocks, defs } s.decided (some n) a k) := by
  obtain ⟨top, hi⟩ := inv_reach r
  exact C76_running_partial (r.step (.start s n hn)) (n := n) (snap := s.blocks) rfl hi.le1 wf defs a k

/-! ### Examples -/

/-- A block that touches one contract. -/
def touch (a : Nat) (u : CU) : Blk :=
  { contracts := [(a, u)], system := [], cairo := [], declared := [], migrated := [], classes := [] }

def emptyBlk : Blk :=
  { contracts := [], system := [], cairo := [], declared := [], migrated := [], classes := [] }

theorem wf_touch (a : Nat) (u : CU) (h : (u.storage.map (·.1)).Nodup) : Wf (touch a u) where
  contracts := by simp [touch]
  slots := by intro p hp; simp [touch] at hp; subst hp; exact h
  system := by simp [touch]
  systemSlots := by intro p hp; cases hp
  apart := by rintro a _ ⟨s, hs⟩; cases hs
  declared := by simp [touch]
  migrated := by simp [touch]

theorem wf_empty : Wf emptyBlk where
  contracts := by simp [emptyBlk]
  slots := by intro p hp; cases hp
  system := by simp [emptyBlk]
  systemSlots := by intro p hp; cases hp
  apart := by rintro a _ ⟨s, hs⟩; cases hs
  declared := by simp [emptyBlk]
  migrated := by simp [emptyBlk]

/-- Contract `7`: block `0` deploys it, block `1` raises its nonce and sets a slot, block `2` only
sets the slot; contract `8` is deployed by block `3` and written by block `4`. -/
def sampleAgreed : Nat → Blk
  | 0 => touch 7 { storage := [(1, 10)], cls := some (.deploy 70), nonce := some 1 }
  | 1 => touch 7 { storage := [(1, 11)], cls := none, nonce := some 2 }
  | 2 => touch 7 { storage := [(1, 12)], cls := none, nonce := none }
  | 3 => touch 8 { storage := [], cls := some (.deploy 80), nonce := none }
  | 4 => touch 8 { storage := [(5, 6)], cls := none, nonce := none }
  | _ => emptyBlk

theorem wf_sample (m : Nat) : Wf (sampleAgreed m) := by
  match m with
  | 0 => exact wf_touch _ _ (by decide)
  | 1 => exact wf_touch _ _ (by decide)
  | 2 => exact wf_touch _ _ (by decide)
  | 3 => exact wf_touch _ _ (by decide)
  | 4 => exact wf_touch _ _ (by decide)
  | _ + 5 => exact wf_empty

/-- The node of the examples has block `0` committed and blocks `1` to `4` decided. -/
def sampleNode : Node where
  blocks := [sampleAgreed 0]
  confirmed := 1
  decided := [(1, sampleAgreed 1), (2, sampleAgreed 2), (3, sampleAgreed 3), (4, sampleAgreed 4)]
  reader := none

theorem sample_reach : Reach sampleAgreed sampleNode := by
  have h0 : Reach sampleAgreed (Node.fresh sampleAgreed 1) := .fresh 1
  have h1 := h0.step (.decide _ 1 (by intro b h; cases h) (Nat.le_refl 1) (.inr (.inl (Nat.zero_lt_one))))
  have h2 := h1.step (.decide _ 2 (by simp [Node.fresh, insertDecided]) (by simp [Node.fresh])
    (.inr (.inr ⟨sampleAgreed 1, by simp [Node.fresh, insertDecided]⟩)))
  have h3 := h2.step (.decide _ 3 (by simp [Node.fresh, insertDecided]) (by simp [Node.fresh])
    (.inr (.inr ⟨sampleAgreed 2, by simp [Node.fresh, insertDecided]⟩)))
  exact h3.step (.decide _ 4 (by simp [Node.fresh, insertDecided]) (by simp [Node.fresh])
    (.inr (.inr ⟨sampleAgreed 3, by simp [Node.fresh, insertDecided]⟩)))

def noDefs : Nat → Option (Nat × Option Nat) := fun _ => none

theorem sample_onTop (n : Nat) (h : n < 5) :
    OnTop ((List.range 5).map sampleAgreed) n { blocks := sampleNode.blocks, defs := noDefs }
      sampleNode.decided := by
  refine onTop_of_inv (top := 5) ⟨rfl, by decide, by decide, rfl⟩ h rfl (by decide) (by decide) noDefs

/-- The hypotheses of `C76_storage` are met, and it says that the slot holds `12`. -/
example : Last (((List.range 5).map sampleAgreed).take 3) (SetsSlot 7 1)
    (getStorageAt { blocks := sampleNode.blocks, defs := noDefs } sampleNode.decided (some 2) 7 1) :=
  C76_storage (sample_onTop 2 (by decide)) (fun b hb => by
    obtain ⟨m, _, rfl⟩ := List.mem_map.mp hb
    exact wf_sample m) 7 1

example : getStorageAt { blocks := sampleNode.blocks, defs := noDefs } sampleNode.decided (some 2) 7 1
    = 12 := by decide +kernel

example : Last ((List.range 3).map sampleAgreed) (SetsSlot 7 1)
    (getStorageAt { blocks := sampleNode.blocks, defs := noDefs } sampleNode.decided (some 2) 7 1) :=
  C76_started sample_reach (.inr ⟨sampleAgreed 2, by simp [sampleNode]⟩) wf_sample noDefs 7 1

/-- On top of block `1` the condition of `C76_nonce_partial` is met: the nonce is `2`. -/
example : Last (((List.range 5).map sampleAgreed).take 2) (SetsNonce 7)
    (getNonceAt { blocks := sampleNode.blocks, defs := noDefs } sampleNode.decided (some 1) 7) := by
  refine C76_nonce_partial (sample_onTop 1 (by decide)) (fun b hb => by
    obtain ⟨m, _, rfl⟩ := List.mem_map.mp hb
    exact wf_sample m) 7 ?_
  intro p hp hle u hu hn q hq hlt
  simp only [sampleNode, List.mem_cons, List.not_mem_nil, or_false] at hp hq
  rcases hp with rfl | rfl | rfl | rfl
  · simp [sampleAgreed, touch] at hu; subst hu; cases hn
  all_goals simp at hle

example : getNonceAt { blocks := sampleNode.blocks, defs := noDefs } sampleNode.decided (some 1) 7
    = 2 := by decide +kernel

/-- On top of block `3` the condition of `C76_class_hash_partial` is met for contract `8`. -/
example : Last (((List.range 5).map sampleAgreed).take 4) (SetsClass 8)
    (getClassHashAt { blocks := sampleNode.blocks, defs := noDefs } sampleNode.decided (some 3) 8) := by
  refine C76_class_hash_partial (sample_onTop 3 (by decide)) (fun b hb => by
    obtain ⟨m, _, rfl⟩ := List.mem_map.mp hb
    exact wf_sample m) 8 ?_
  intro p hp hle u hu hn q hq hlt
  simp only [sampleNode, List.mem_cons, List.not_mem_nil, or_false] at hp hq
  rcases hp with rfl | rfl | rfl | rfl
  · simp [sampleAgreed, touch] at hu
  · simp [sampleAgreed, touch] at hu
  · simp [sampleAgreed, touch] at hu; subst hu; cases hn
  · simp at hle

example : getClassHashAt { blocks := sampleNode.blocks, defs := noDefs } sampleNode.decided (some 3) 8
    = 80 := by decide +kernel

/-- On top of a decided block that only changes storage of a contract. -/
theorem masked_sample : OnTop [touch 7 { storage := [], cls := some (.deploy 70), nonce := some 1 },
      touch 7 { storage := [(1, 5)], cls := none, nonce := none }] 1
    { blocks := [touch 7 { storage := [], cls := some (.deploy 70), nonce := some 1 }], defs := noDefs }
    [(1, touch 7 { storage := [(1, 5)], cls := none, nonce := none })] where
  reach := by decide
  stored := rfl
  ascending := by simp
  agree := by intro p hp; simp at hp; subst hp; rfl
  cover := by
    intro m hm
    match m with
    | 0 => exact .inl (by decide)
    | 1 => exact .inr ⟨_, List.mem_cons_self⟩
  noGap := by
    intro p hp m h1 h2
    simp at hp; subst hp
    simp at h1; omega

theorem masked_wf : ∀ b ∈ [touch 7 { storage := [], cls := some (.deploy 70), nonce := some 1 },
      touch 7 { storage := [(1, 5)], cls := none, nonce := none }], Wf b := by
  intro b hb
  simp only [List.mem_cons, List.not_mem_nil, or_false] at hb
  rcases hb with rfl | rfl
  · exact wf_touch _ _ (by simp)
  · exact wf_touch _ _ (by simp)

example := C76_nonce_masked masked_sample masked_wf 7 List.mem_cons_self (Nat.le_refl 1)
  List.mem_cons_self rfl (by intro q hq h1; simp at hq; subst hq; exact absurd h1 (Nat.lt_irrefl _))
example := C76_class_hash_masked masked_sample masked_wf 7 List.mem_cons_self (Nat.le_refl 1)
  List.mem_cons_self rfl (by intro q hq h1; simp at hq; subst hq; exact absurd h1 (Nat.lt_irrefl _))

theorem setsNonce_fn {b : Blk} (hb : Wf b) {a v w : Nat} (h : SetsNonce a b v)
    (h' : SetsNonce a b w) : v = w := by
  have := (nonce_iff hb a v).mpr h
  rw [(nonce_iff hb a w).mpr h'] at this
  exact (Option.some.inj this).symm

theorem setsClass_fn {b : Blk} (hb : Wf b) {a v w : Nat} (h : SetsClass a b v)
    (h' : SetsClass a b w) : v = w := by
  have := (cls_iff hb a v).mpr h
  rw [(cls_iff hb a w).mpr h'] at this
  exact (Option.some.inj this).symm

theorem setsSlot_fn {b : Blk} (hb : Wf b) {a k v w : Nat} (h : SetsSlot a k b v)
    (h' : SetsSlot a k b w) : v = w := by
  have := (slot_iff hb a k v).mpr h
  rw [(slot_iff hb a k w).mpr h'] at this
  exact (Option.some.inj this).symm

/-! ### Violations -/

/-- A node that has decided two blocks which are not committed yet reads an old nonce: the first
raises the nonce of a contract from `1` to `2`, the second only writes its storage, and on top of
both the nonce is still `1`. -/
theorem C76_nonce_violated : ∃ (agreed : Nat → Blk) (s : Node) (n a : Nat),
    Reach agreed s ∧ (∀ m, Wf (agreed m)) ∧ s.known n ∧
    getNonceAt { blocks := s.blocks, defs := noDefs } s.decided (some n) a = 1 ∧
    Last ((List.range (n + 1)).map agreed) (SetsNonce a) 2 := by
  refine ⟨sampleAgreed, sampleNode, 2, 7, sample_reach, wf_sample,
    .inr ⟨sampleAgreed 2, by simp [sampleNode]⟩, by decide +kernel, ?_⟩
  refine .inl ⟨[sampleAgreed 0], sampleAgreed 1, [sampleAgreed 2], rfl, ?_, ?_⟩
  · exact ⟨_, List.mem_cons_self, rfl⟩
  · intro b hb w ⟨u, hu, hw⟩
    simp at hb; subst hb
    simp [sampleAgreed, touch] at hu; subst hu
    cases hw

/-- In the same way a contract deployed by the first of two such blocks and written by the second
is not deployed on top of both. -/
theorem C76_class_hash_violated : ∃ (agreed : Nat → Blk) (s : Node) (n a : Nat),
    Reach agreed s ∧ (∀ m, Wf (agreed m)) ∧ s.known n ∧
    getClassHashAt { blocks := s.blocks, defs := noDefs } s.decided (some n) a = 0 ∧
    Last ((List.range (n + 1)).map agreed) (SetsClass a) 80 := by
  refine ⟨sampleAgreed, sampleNode, 4, 8, sample_reach, wf_sample,
    .inr ⟨sampleAgreed 4, by simp [sampleNode]⟩, by decide +kernel, ?_⟩
  refine .inl ⟨[sampleAgreed 0, sampleAgreed 1, sampleAgreed 2], sampleAgreed 3, [sampleAgreed 4],
    rfl, ?_, ?_⟩
  · exact ⟨_, List.mem_cons_self, .inl rfl⟩
  · intro b hb w ⟨u, hu, hw⟩
    simp at hb; subst hb
    simp [sampleAgreed, touch] at hu; subst hu
    rcases hw with hw | hw <;> cases hw

/-- A running execution whose parent is committed and confirmed reads the state before the parent:
the decided block is dropped, and the database transaction of the execution is older. -/
theorem C76_stale_violated : ∃ (agreed : Nat → Blk) (s : Node) (n : Nat) (snap : List Blk) (a k : Nat),
    Reach agreed s ∧ (∀ m, Wf (agreed m)) ∧ s.reader = some (n, snap) ∧
    getStorageAt { blocks := snap, defs := noDefs } s.decided (some n) a k = 10 ∧
    Last ((List.range (n + 1)).map agreed) (SetsSlot a k) 11 := by
  have h0 : Reach sampleAgreed (Node.fresh sampleAgreed 1) := .fresh 1
  have h1 := h0.step (.decide _ 1 (by intro b h; cases h) (Nat.le_refl 1)
    (.inr (.inl (Nat.zero_lt_one))))
  have h2 := h1.step (.start _ 1 (.inr ⟨sampleAgreed 1, by simp [Node.fresh, insertDecided]⟩))
  have h3 := h2.step (.commit _ (sampleAgreed 1) (by simp [Node.fresh, insertDecided]))
  have h4 := h3.step (.confirm _ (by simp [Node.fresh]))
  refine ⟨sampleAgreed, _, 1, [sampleAgreed 0], 7, 1, h4, wf_sample, rfl, by decide +kernel, ?_⟩
  refine .inl ⟨[sampleAgreed 0], sampleAgreed 1, [], rfl, ?_, ?_⟩
  · exact .inl ⟨_, List.mem_cons_self, by simp⟩
  · intro b hb; cases hb

/-- When the gateway is ahead of consensus, a decided block whose confirmation has not been processed
hides the newer block in the database. -/
theorem C76_gap_violated : ∃ (agreed : Nat → Blk) (s : Node) (n a k : Nat),
    ReachFetch agreed s ∧ (∀ m, Wf (agreed m)) ∧ s.known n ∧
    getStorageAt { blocks := s.blocks, defs := noDefs } s.decided (some n) a k = 11 ∧
    Last ((List.range (n + 1)).map agreed) (SetsSlot a k) 12 := by
  have h0 : ReachFetch sampleAgreed (Node.fresh sampleAgreed 1) := .fresh 1
  have h1 := h0.step (.base (.decide _ 1 (by intro b h; cases h) (Nat.le_refl 1)
    (.inr (.inl (Nat.zero_lt_one)))))
  have h2 := h1.step (.base (.commit _ (sampleAgreed 1) (by simp [Node.fresh, insertDecided])))
  have h3 := h2.step (.fetch _ (by simp [Node.fresh, insertDecided]))
  refine ⟨sampleAgreed, _, 2, 7, 1, h3, wf_sample, .inl (by simp [Node.fresh]), by decide +kernel, ?_⟩
  refine .inl ⟨[sampleAgreed 0, sampleAgreed 1], sampleAgreed 2, [], rfl, ?_, ?_⟩
  · exact .inl ⟨_, List.mem_cons_self, by simp⟩
  · intro b hb; cases hb

end Verif.Exec
