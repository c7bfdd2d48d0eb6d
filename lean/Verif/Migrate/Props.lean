import Verif.Migrate.Lemmas
import Verif.State.ReadBackProps
/-
C103: upgrading an old database keeps what it says.
-/
namespace Verif.Migrate
open Verif.State Verif.Db

/-! ### an old database -/

/-- A chain of three blocks: a contract is deployed and written, a Sierra class is declared, a system contract is written. -/
def sampleChain : List (Hash × Update) := [
  (100, { contracts := [(5, { storage := [(7, 1), (8, 2)], cls := some (.deploy 50), nonce := some 1 })], cairo := [50] }),
  (101, { contracts := [(5, { storage := [(7, 3)] })], sierra := [(60, 600)], system := [(1, [(0, 100)])] }),
  (102, { contracts := [(6, { storage := [(8, 4)], cls := some (.deploy 60) }), (5, { nonce := some 2 })] })]

/-- The database of a node of an old version with that chain, and a class that a reorg has left behind. -/
def sampleOld : Old where
  headers := [(0, 100), (1, 101), (2, 102)]
  storage := [⟨0, 5, 7, 1⟩, ⟨0, 5, 8, 2⟩, ⟨1, 5, 7, 3⟩, ⟨1, 1, 0, 100⟩, ⟨2, 6, 8, 4⟩]
  nonces := [⟨0, 5, 1⟩, ⟨2, 5, 2⟩]
  contracts := [⟨0, 5, 50⟩, ⟨2, 6, 60⟩]
  classDefs := [(50, some 0), (99, none), (60, some 1)]
  casmDefs := [(60, 600), (99, 990)]

theorem sample_noneKnown : NoneKnown sampleChain := by
  unfold NoneKnown
  decide

theorem chain_cases {n : Nat} {h : Hash} {u : Update} (hn : sampleChain[n]? = some (h, u)) :
    (n = 0 ∧ (h, u) = sampleChain[0]) ∨ (n = 1 ∧ (h, u) = sampleChain[1]) ∨ (n = 2 ∧ (h, u) = sampleChain[2]) := by
  match n, hn with
  | 0, hn => exact .inl ⟨rfl, (Option.some.inj hn).symm⟩
  | 1, hn => exact .inr (.inl ⟨rfl, (Option.some.inj hn).symm⟩)
  | 2, hn => exact .inr (.inr ⟨rfl, (Option.some.inj hn).symm⟩)
  | n + 3, hn => exact absurd hn (by simp [sampleChain])

theorem sample_storage (n a k v : Nat) : (⟨n, a, k, v⟩ : OldStorage) ∈ sampleOld.storage ↔
    ∃ h u, sampleChain[n]? = some (h, u) ∧ u.storageOf a k = some v := by
  constructor
  · intro hm
    simp only [sampleOld, List.mem_cons, List.not_mem_nil, or_false, OldStorage.mk.injEq] at hm
    rcases hm with ⟨rfl, rfl, rfl, rfl⟩ | ⟨rfl, rfl, rfl, rfl⟩ | ⟨rfl, rfl, rfl, rfl⟩ | ⟨rfl, rfl, rfl, rfl⟩ | ⟨rfl, rfl, rfl, rfl⟩ <;>
      exact ⟨_, _, rfl, rfl⟩
  · rintro ⟨h, u, hn, hv⟩
    rcases chain_cases hn with ⟨rfl, e⟩ | ⟨rfl, e⟩ | ⟨rfl, e⟩ <;>
      simp only [sampleChain, List.getElem_cons_zero, List.getElem_cons_succ, Prod.mk.injEq] at e <;>
      obtain ⟨rfl, rfl⟩ := e <;>
      simp only [Update.storageOf, List.lookup_cons, List.lookup_nil] at hv <;>
      grind [sampleOld]

theorem sample_nonces (n a v : Nat) : (⟨n, a, v⟩ : Row Addr Nonce) ∈ sampleOld.nonces ↔
    ∃ h u, sampleChain[n]? = some (h, u) ∧ u.nonceOf a = some v := by
  constructor
  · intro hm
    simp only [sampleOld, List.mem_cons, List.not_mem_nil, or_false, Row.mk.injEq] at hm
    rcases hm with ⟨rfl, rfl, rfl⟩ | ⟨rfl, rfl, rfl⟩ <;> exact ⟨_, _, rfl, rfl⟩
  · rintro ⟨h, u, hn, hv⟩
    rcases chain_cases hn with ⟨rfl, e⟩ | ⟨rfl, e⟩ | ⟨rfl, e⟩ <;>
      simp only [sampleChain, List.getElem_cons_zero, List.getElem_cons_succ, Prod.mk.injEq] at e <;>
      obtain ⟨rfl, rfl⟩ := e <;>
      simp only [Update.nonceOf, List.lookup_cons, List.lookup_nil] at hv <;>
      grind [sampleOld]

theorem sample_contracts (n a v : Nat) : (⟨n, a, v⟩ : Row Addr Class) ∈ sampleOld.contracts ↔
    ∃ h u, sampleChain[n]? = some (h, u) ∧ u.classOf a = some v := by
  constructor
  · intro hm
    simp only [sampleOld, List.mem_cons, List.not_mem_nil, or_false, Row.mk.injEq] at hm
    rcases hm with ⟨rfl, rfl, rfl⟩ | ⟨rfl, rfl, rfl⟩ <;> exact ⟨_, _, rfl, rfl⟩
  · rintro ⟨h, u, hn, hv⟩
    rcases chain_cases hn with ⟨rfl, e⟩ | ⟨rfl, e⟩ | ⟨rfl, e⟩ <;>
      simp only [sampleChain, List.getElem_cons_zero, List.getElem_cons_succ, Prod.mk.injEq] at e <;>
      obtain ⟨rfl, rfl⟩ := e <;>
      simp only [Update.classOf, Update.classUpdOf, List.lookup_cons, List.lookup_nil] at hv <;>
      grind [sampleOld, ClassUpd.hash]

theorem sample_classes (c n : Nat) : (c, some n) ∈ sampleOld.classDefs ↔
    (sampleChain.map (·.2)).findIdx? (fun u => u.declares c) = some n := by
  simp only [sampleOld, sampleChain, List.map_cons, List.map_nil, List.findIdx?_cons, List.findIdx?_nil, Update.declares,
    List.mem_cons, Prod.mk.injEq, Option.some.injEq, reduceCtorEq, and_false, List.not_mem_nil, or_false, false_or]
  by_cases h1 : c = 50
  · subst h1; simp; omega
  · by_cases h2 : c = 60
    · subst h2; simp; omega
    · have e1 : ¬ 50 = c := fun x => h1 x.symm
      have e2 : ¬ 60 = c := fun x => h2 x.symm
      simp [h1, h2, e1, e2]

theorem sample_holds : Holds sampleOld sampleChain where
  headers := by
    intro n h
    constructor
    · intro hm
      simp only [sampleOld, List.mem_cons, List.not_mem_nil, or_false, Prod.mk.injEq] at hm
      rcases hm with ⟨rfl, rfl⟩ | ⟨rfl, rfl⟩ | ⟨rfl, rfl⟩ <;> exact ⟨_, rfl⟩
    · rintro ⟨u, hn⟩
      rcases chain_cases hn with ⟨rfl, e⟩ | ⟨rfl, e⟩ | ⟨rfl, e⟩ <;>
        simp only [sampleChain, List.getElem_cons_zero, List.getElem_cons_succ, Prod.mk.injEq] at e <;>
        obtain ⟨rfl, rfl⟩ := e <;> decide
  headersOnce := by decide
  hashes := by decide
  storage := sample_storage
  storageOnce := by decide
  nonces := sample_nonces
  noncesOnce := by decide
  contracts := sample_contracts
  contractsOnce := by decide
  classesOnce := by decide
  classes := sample_classes
  casm := by
    intro c x n hm
    simp only [sampleOld, List.mem_cons, Prod.mk.injEq, Option.some.injEq, reduceCtorEq, and_false, List.not_mem_nil,
      or_false, false_or] at hm
    rcases hm with ⟨rfl, _⟩ | ⟨rfl, _⟩
    · simp [sampleOld, sampleChain]
    · simp [sampleOld, sampleChain, List.lookup, eq_comm]
  casmOnce := by decide

/-! ### the theorems -/

/-- **C103.** Storage, nonce and class rows: after the upgrade, the rows of every storage cell, of every nonce and of
every contract are the ones the old database had, in the same order, whatever it holds. -/
theorem C103_rows (o : Old) (a : Addr) (k : Key) :
    storageRows (upgrade o) a k = o.storageRows a k ∧ nonceRows (upgrade o) a = o.nonceRows a ∧
      classRows (upgrade o) a = o.classRows a :=
  ⟨upgrade_storage o a k, upgrade_nonce o a, upgrade_class o a⟩

example : storageRows (upgrade sampleOld) 5 7 = [(0, 1), (1, 3)] ∧ nonceRows (upgrade sampleOld) 5 = [(0, 1), (2, 2)] ∧
    storageRows (upgrade sampleOld) 1 0 = [(1, 100)] := by decide

/-- **C103.** An old database that holds a chain, upgraded and then used in any way (blocks, reorgs, pruning), answers
every read of storage, nonces and contract classes, and says when a class was declared, as the chain at that point does: the
same answers as a node that never was upgraded (C15, C17, C19). -/
theorem C103_state_partial (o : Old) (chain : List (Hash × Update)) (h : Holds o chain) (hk : NoneKnown chain) (ops : List Op)
    (hw : OpsOk ops) (id : BlockId) (hr : (ops.foldl Track.step ⟨chain, 0⟩).Retained id) (a : Addr) (k : Key) (c : Class) :
    storageValue (ops.foldl step (upgrade o)) id a k = (ops.foldl Track.step ⟨chain, 0⟩).at (·.storageOf a k) id ∧
    contractNonce (ops.foldl step (upgrade o)) id a = (ops.foldl Track.step ⟨chain, 0⟩).at (·.nonceOf a) id ∧
    contractClass (ops.foldl step (upgrade o)) id a = (ops.foldl Track.step ⟨chain, 0⟩).at (·.classOf a) id ∧
    classDeclaredAt (ops.foldl step (upgrade o)) id c = declaredBy (ops.foldl Track.step ⟨chain, 0⟩) id c := by
  have g := good_fold (upgrade_good h hk) ops hw
  refine ⟨?_, g.read (g.nonce a) id hr, g.read (g.cls a) id hr, good_declared g id c⟩
  rw [← g.read (g.storage a k) id hr]
  unfold storageValue storageValueWithBlock
  rw [Option.map_map]
  rfl

/-- The hypotheses of C103_state_partial are met: the sample, then a block, a reorg of it and of the block below it, and another block. -/
def laterOps : List Op := [.block 103 { contracts := [(5, { storage := [(7, 9)] })] }, .reorg 2,
  .block 104 { contracts := [(6, { storage := [(9, 1)], nonce := some 7, cls := some (.replace 50) })] }]

theorem laterOps_ok : OpsOk laterOps := by
  refine opsOk_of _ ?_
  intro op hm
  simp only [laterOps, List.mem_cons, List.not_mem_nil, or_false] at hm
  rcases hm with rfl | rfl | rfl
  · exact (wf_iff _).2 (by decide)
  · trivial
  · exact (wf_iff _).2 (by decide)

example : storageValue (laterOps.foldl step (upgrade sampleOld)) .latest 5 7 = some 3 ∧
    contractNonce (laterOps.foldl step (upgrade sampleOld)) .latest 5 = some 1 ∧
    contractClass (laterOps.foldl step (upgrade sampleOld)) (.number 2) 6 = some 50 ∧
    classDeclaredAt (laterOps.foldl step (upgrade sampleOld)) (.hash 101) 60 = some 1 := by decide

example (id : BlockId) (hr : (laterOps.foldl Track.step ⟨sampleChain, 0⟩).Retained id) (a : Addr) (k : Key) (c : Class) :=
  C103_state_partial sampleOld sampleChain sample_holds sample_noneKnown laterOps laterOps_ok id hr a k c

/-- **C103.** The compiled class hash of a Sierra class at every block, after the upgrade and any later use in which
no reorg removes a declaration (without that, C18 fails for every node). -/
theorem C103_casm_partial (o : Old) (chain : List (Hash × Update)) (h : Holds o chain) (hk : NoneKnown chain)
    (hc : ChainOk (chain.map (·.2))) (hwf : ∀ u ∈ chain.map (·.2), u.WF) (hmig : ∀ u ∈ chain.map (·.2), u.migrated = [])
    (ops : List Op) (hw : OpsOk ops) (hcl : CleanFrom ⟨chain, 0⟩ ops) (id : BlockId)
    (hr : (ops.foldl Track.step ⟨chain, 0⟩).Retained id) (c : Class) :
    casmHashAt (ops.foldl step (upgrade o)) id c = (ops.foldl Track.step ⟨chain, 0⟩).at (·.casmOf c) id := by
  have g := good_fold (upgrade_good h hk) ops hw
  have t := casm_fold (upgrade_good h hk) (upgrade_casm_tab h hk hc hwf hmig c) ops hw hcl
  exact g.read (t.mono (Nat.zero_le _)) id hr

theorem sample_chainOk : ChainOk (sampleChain.map (·.2)) := chainOk_of (by decide)

theorem sample_wf : ∀ u ∈ sampleChain.map (·.2), u.WF := by
  intro u hu
  simp only [sampleChain, List.map_cons, List.map_nil, List.mem_cons, List.not_mem_nil, or_false] at hu
  rcases hu with rfl | rfl | rfl <;> exact (wf_iff _).2 (by decide)

theorem laterOps_clean : CleanFrom ⟨sampleChain, 0⟩ laterOps := by
  intro pre tail post e
  match pre, e with
  | [], e => simp [laterOps] at e
  | [_], e =>
    simp only [laterOps, List.cons_append, List.nil_append, List.cons.injEq, Op.reorg.injEq] at e
    obtain ⟨rfl, rfl, _⟩ := e
    decide
  | [_, _], e => simp [laterOps] at e
  | [_, _, _], e => simp [laterOps] at e
  | _ :: _ :: _ :: _ :: _, e => simp [laterOps] at e

example (id : BlockId) (hr : (laterOps.foldl Track.step ⟨sampleChain, 0⟩).Retained id) (c : Class) :=
  C103_casm_partial sampleOld sampleChain sample_holds sample_noneKnown sample_chainOk sample_wf (by decide) laterOps laterOps_ok
    laterOps_clean id hr c

example : casmHashAt (upgrade sampleOld) (.number 1) 60 = some 600 ∧ casmHashAt (upgrade sampleOld) (.number 0) 60 = none ∧
    casmHashAt (upgrade sampleOld) .latest 99 = none := by decide

/-- **C103 (revision 61).** After the upgrade every header names as its parent the block that its own header on the network
names. -/
theorem C103_parent (bs : List Reply) (hl : Linked bs) (n : Nat) (b : Reply) (hb : bs[n]? = some b) :
    ∃ hs, upgradeHeaders (numbered bs) = some hs ∧ (blockHeader hs n).map (·.parent) = some b.parent ∧
      (blockHeader (synced bs) n).map (·.parent) = some b.parent := by
  obtain ⟨hs, h1, h2, h3⟩ := headers_read hl hb
  exact ⟨hs, h1, by rw [h2]; rfl, by rw [h3]; rfl⟩

/-- Three blocks as the gateway gives them. -/
def sampleReplies : List Reply := [⟨100, 0, none, 11, 12, 3⟩, ⟨101, 100, none, 13, 14, 5⟩, ⟨102, 101, some (7, 8), 15, 16, 2⟩]

theorem sample_linked : Linked sampleReplies := by
  intro n b hb
  match n, hb with
  | 0, hb => cases Option.some.inj hb; rfl
  | 1, hb => cases Option.some.inj hb; rfl
  | 2, hb => cases Option.some.inj hb; rfl
  | n + 3, hb => exact absurd hb (by simp [sampleReplies])

example := C103_parent sampleReplies sample_linked 1 _ rfl

example : (upgradeHeaders (numbered sampleReplies)).bind (blockHeader · 1) = some ⟨100, 0, 0, 0, 0, 0⟩ ∧
    blockHeader (synced sampleReplies) 1 = some ⟨100, 1, 1, 13, 14, 5⟩ := by decide

/-- **C103 (revision 72).** An L2 gas price that was stored as zero reads as one; every other price, and everything else in a header, reads as
before. -/
theorem C103_prices (hs : List Header) (i : Nat) (h : Header) (hi : hs[i]? = some h) :
    ∃ h', (revision72 hs)[i]? = some h' ∧
      h'.read.ethL2 = (if h.ethL2 = some 0 then 1 else h.read.ethL2) ∧ h'.read.strkL2 = (if h.strkL2 = some 0 then 1 else h.read.strkL2) ∧
      h'.number = h.number ∧ h'.hash = h.hash ∧ h'.read.parent = h.read.parent ∧ h'.read.receiptCommitment = h.read.receiptCommitment ∧
      h'.read.diffCommitment = h.read.diffCommitment ∧ h'.read.diffLength = h.read.diffLength := by
  have key : ∀ p : Option Nat, (zeroToOne p).getD 0 = if p = some 0 then 1 else p.getD 0 := by
    intro p
    match p with
    | none => rfl
    | some 0 => rfl
    | some (n + 1) => rfl
  refine ⟨{ h with ethL2 := zeroToOne h.ethL2, strkL2 := zeroToOne h.strkL2 }, ?_, key _, key _, rfl, rfl, rfl, rfl, rfl, rfl⟩
  simp [revision72, hi]

example : ∃ h', (revision72 [{ number := 0, hash := 1, parent := 2, ethL2 := some 0, strkL2 := some 5, receiptCommitment := 0, diffCommitment := none, diffLength := 0 }])[0]? = some h' ∧ h'.read.ethL2 = 1 ∧ h'.read.strkL2 = 5 := by
  obtain ⟨h', h1, h2, h3, -⟩ := C103_prices [{ number := 0, hash := 1, parent := 2, ethL2 := some 0, strkL2 := some 5, receiptCommitment := 0, diffCommitment := none, diffLength := 0 }] 0 _ rfl
  exact ⟨h', h1, h2, h3⟩

/-- **F99: C103 fails for the L2 gas prices of headers stored before revision 65.** For every block that has no L2 gas price the upgraded
node reports zero, a node that synced the same blocks reports one: revision 72 only looks for stored zeros, and the column that
revision 65 adds is NULL. -/
theorem C103_prices_violated (bs : List Reply) (hl : Linked bs) (n : Nat) (b : Reply) (hb : bs[n]? = some b) (hp : b.l2Price = none) :
    ∃ hs, upgradeHeaders (numbered bs) = some hs ∧
      (blockHeader hs n).map (fun r => (r.ethL2, r.strkL2)) = some (0, 0) ∧
      (blockHeader (synced bs) n).map (fun r => (r.ethL2, r.strkL2)) = some (1, 1) := by
  obtain ⟨hs, h1, h2, h3⟩ := headers_read hl hb
  refine ⟨hs, h1, by rw [h2]; rfl, ?_⟩
  rw [h3]
  simp [Header.read, storeHeader, hp]

/-- **F100: C103 fails for the commitments of headers stored before revisions 58 and 62.** They read as zero, where a node that
synced the same blocks has the receipt commitment, and the commitment and length of the state diff. -/
theorem C103_commitments_violated (bs : List Reply) (hl : Linked bs) (n : Nat) (b : Reply) (hb : bs[n]? = some b) :
    ∃ hs, upgradeHeaders (numbered bs) = some hs ∧
      (blockHeader hs n).map (fun r => (r.receiptCommitment, r.diffCommitment, r.diffLength)) = some (0, 0, 0) ∧
      (blockHeader (synced bs) n).map (fun r => (r.receiptCommitment, r.diffCommitment, r.diffLength)) =
        some (b.receiptCommitment, b.diffCommitment, b.diffLength) := by
  obtain ⟨hs, h1, h2, h3⟩ := headers_read hl hb
  exact ⟨hs, h1, by rw [h2]; rfl, by rw [h3]; rfl⟩

/-- **F101: C103 fails for re-declared classes.** A class that was declared in an earlier block is missing from the state update
the upgraded node returns, for every block stored before revision 64. -/
theorem C103_redeclared_violated (o : Old) (chain : List (Hash × Update)) (h : Holds o chain) (c : Class) (m n : Nat) (hmn : m < n)
    (hd : (chain.map (·.2)).findIdx? (fun u => u.declares c) = some m) (u : Update) (hu : readUpdate (upgrade o) n = some u) :
    c ∉ u.cairo := by
  unfold readUpdate at hu
  split at hu
  · rw [Option.some.injEq] at hu
    subst hu
    rw [(readClasses_other (upgrade o) n _).2.2.2.1, (readMigrated_other (upgrade o) n _).2.2.1, readRedeclared_cairo, readDeclared_cairo,
      (readStorage_other (upgrade o) n _).2.2.1, (readNonces_other (upgrade o) n _).2.2.2.1]
    rintro (⟨d, hd', _⟩ | ⟨⟨c', b⟩, hm, e1, e2, _⟩ | hm)
    · exact absurd hd' List.not_mem_nil
    · simp only at e1 e2
      subst e1; subst e2
      have hm' := (h.classes c' n).1 ((revision73_mem _ _ _).1 hm).1
      rw [hd] at hm'
      exact absurd (Option.some.inj hm') (by omega)
    · exact absurd hm List.not_mem_nil
  · exact absurd hu (by simp)

/-- A class declared twice. -/
def twiceChain : List (Hash × Update) := [(100, { cairo := [50] }), (101, { cairo := [50] })]
def twiceOld : Old := { headers := [(0, 100), (1, 101)], classDefs := [(50, some 0)] }

theorem twice_updates {n : Nat} {h : Hash} {u : Update} (hn : twiceChain[n]? = some (h, u)) : n ≤ 1 ∧ h = 100 + n ∧ u = { cairo := [50] } := by
  match n, hn with
  | 0, hn => cases Option.some.inj hn; exact ⟨by omega, rfl, rfl⟩
  | 1, hn => cases Option.some.inj hn; exact ⟨by omega, rfl, rfl⟩
  | n + 2, hn => exact absurd hn (by simp [twiceChain])

theorem twice_holds : Holds twiceOld twiceChain where
  headers := by
    intro n h
    constructor
    · intro hm
      simp only [twiceOld, List.mem_cons, List.not_mem_nil, or_false, Prod.mk.injEq] at hm
      rcases hm with ⟨rfl, rfl⟩ | ⟨rfl, rfl⟩ <;> exact ⟨_, rfl⟩
    · rintro ⟨u, hn⟩
      obtain ⟨h1, rfl, _⟩ := twice_updates hn
      have : n = 0 ∨ n = 1 := by omega
      rcases this with rfl | rfl <;> decide
  headersOnce := by decide
  hashes := by decide
  storage := by
    intro n a k v
    refine ⟨fun hm => absurd hm List.not_mem_nil, ?_⟩
    rintro ⟨h, u, hn, hv⟩
    obtain ⟨_, _, rfl⟩ := twice_updates hn
    exact absurd hv (by simp [Update.storageOf])
  storageOnce := by decide
  nonces := by
    intro n a v
    refine ⟨fun hm => absurd hm List.not_mem_nil, ?_⟩
    rintro ⟨h, u, hn, hv⟩
    obtain ⟨_, _, rfl⟩ := twice_updates hn
    exact absurd hv (by simp [Update.nonceOf])
  noncesOnce := by decide
  contracts := by
    intro n a v
    refine ⟨fun hm => absurd hm List.not_mem_nil, ?_⟩
    rintro ⟨h, u, hn, hv⟩
    obtain ⟨_, _, rfl⟩ := twice_updates hn
    exact absurd hv (by simp [Update.classOf, Update.classUpdOf])
  contractsOnce := by decide
  classesOnce := by decide
  classes := by
    intro c n
    simp only [twiceOld, twiceChain, List.map_cons, List.map_nil, List.findIdx?_cons, List.findIdx?_nil, Update.declares,
      List.mem_cons, Prod.mk.injEq, Option.some.injEq, List.not_mem_nil, or_false]
    by_cases h1 : c = 50
    · subst h1; simp; omega
    · simp [h1]
  casm := by
    intro c x n hm
    simp [twiceOld, twiceChain]
  casmOnce := by decide

/-- The node that synced the chain returns the second declaration, the one that was upgraded does not. -/
example : (readUpdate (run (replay twiceChain)) 1).map (·.cairo) = some [50] ∧
    (readUpdate (upgrade twiceOld) 1).map (·.cairo) = some [] := by decide

example := C103_redeclared_violated twiceOld twiceChain twice_holds 50 0 1 (by omega) rfl

/-- **F102: C103 fails for the two classes of revision 73.** Whatever the chain says of them, the upgraded node knows of no
declaration of them. -/
theorem C103_known_class_violated (o : Old) (c : Class) (hc : c ∈ knownClasses)
    (id : BlockId) : classDeclaredAt (upgrade o) id c = none := by
  have hno : ∀ b, (upgrade o).classDefs.lookup c ≠ some (some b) := by
    intro b hb
    have := lookup_mem hb
    exact ((revision73_mem _ _ _).1 this).2 hc
  unfold classDeclaredAt
  split
  · rename_i b hb; exact absurd hb (hno b)
  · rfl

/-- The hypotheses of C103_known_class_violated and what it denies: a database that lists one of the classes as declared in
its block, as the chain says. -/
example : ∃ o : Old, (0x045407B5C7D5823F2DB10470C48F1B18C40F6A9543399E650C9A38A0F6251FFC, some 3) ∈ o.classDefs ∧
    classDeclaredAt (upgrade o) .latest 0x045407B5C7D5823F2DB10470C48F1B18C40F6A9543399E650C9A38A0F6251FFC = none :=
  ⟨{ classDefs := [(0x045407B5C7D5823F2DB10470C48F1B18C40F6A9543399E650C9A38A0F6251FFC, some 3)] }, by simp,
    C103_known_class_violated _ _ (by simp [knownClasses]) _⟩

end Verif.Migrate
