import Verif.State.Hist
/-
C15, C17, C19: historical reads, purging and pruning of the versioned state tables.
-/
namespace Verif.State
open Verif.Db

/-- A concrete history used by the examples: two contracts, a replaced class, a reorg and pruning. -/
def sampleOps : List Op := [
  .define 50,
  .block 100 { contracts := [(7, { storage := [(1, 11), (2, 12)], cls := some (.deploy 50), nonce := some 0 })],
               system := [(1, [(3, 33)])], cairo := [50] },
  .block 101 { contracts := [(7, { storage := [(1, 21)], nonce := some 1 }), (8, { storage := [(1, 5)], cls := some (.deploy 50) })] },
  .block 102 { contracts := [(7, { storage := [(2, 0)], cls := some (.replace 51) })], sierra := [(51, 900)] },
  .block 103 { contracts := [(8, { nonce := some 4 })] },
  .reorg 2,
  .block 202 { contracts := [(7, { storage := [(1, 99)] })] },
  .block 203 { contracts := [(8, { storage := [(1, 6)] })] } ]

theorem wf_iff (u : Update) : u.WF ↔
    (u.contracts.map (·.1)).Nodup ∧ (∀ p ∈ u.contracts, (p.2.storage.map (·.1)).Nodup) ∧ (u.system.map (·.1)).Nodup ∧
    (∀ p ∈ u.system, (p.2.map (·.1)).Nodup) ∧ (∀ p ∈ u.contracts, isSystem p.1 = false) ∧ (∀ p ∈ u.system, isSystem p.1 = true) ∧
    u.cairo.Nodup ∧ (u.sierra.map (·.1)).Nodup ∧ (u.migrated.map (·.1)).Nodup :=
  ⟨fun ⟨a, b, c, d, e, f, g, h, i⟩ => ⟨a, b, c, d, e, f, g, h, i⟩, fun ⟨a, b, c, d, e, f, g, h, i⟩ => ⟨a, b, c, d, e, f, g, h, i⟩⟩

instance (u : Update) : Decidable u.WF := decidable_of_iff _ (wf_iff u).symm

instance (op : Op) : Decidable (match op with | .block _ u => u.WF | _ => True) := by
  cases op <;> infer_instance

theorem opsOk_of (ops : List Op) (h : ∀ op ∈ ops, match op with | .block _ u => u.WF | _ => True) : OpsOk ops :=
  fun _ _ hm => h _ hm

theorem sampleOps_ok : OpsOk sampleOps := by
  apply opsOk_of
  decide

/-- The transaction stores a block or a class definition. -/
def Op.stores : Op → Bool
  | .define _ => true
  | .block _ _ => true
  | _ => false

/-- The transaction prunes. -/
def Op.prunes : Op → Bool
  | .prune _ _ => true
  | _ => false

/-- Only blocks (and class definitions) are ever stored. -/
def BlocksOnly (ops : List Op) : Prop := ∀ op ∈ ops, op.stores = true

/-- The history never prunes. -/
def NoPrune (ops : List Op) : Prop := ∀ op ∈ ops, op.prunes = false

theorem BlocksOnly.noPrune {ops : List Op} (h : BlocksOnly ops) : NoPrune ops := by
  intro op ho
  have := h op ho
  cases op with
  | define _ => rfl
  | block _ _ => rfl
  | reorg _ => rfl
  | prune _ _ => exact absurd this (by simp [Op.stores])

theorem lo_noPrune (ops : List Op) (h : NoPrune ops) (tr : Track) : (ops.foldl Track.step tr).lo = tr.lo := by
  induction ops generalizing tr with
  | nil => rfl
  | cons op ops ih =>
    rw [List.foldl_cons, ih fun o ho => h o (List.mem_cons_of_mem _ ho)]
    have h0 := h op (by simp)
    cases op with
    | define _ => rfl
    | block _ _ => unfold Track.step; simp only; split <;> rfl
    | reorg _ => unfold Track.step; simp only; split <;> rfl
    | prune _ _ => exact absurd h0 (by simp [Op.prunes])

/-- **Every read, every history.** After any history of blocks, reorgs and pruning, storage, nonce and class of
every contract at every block whose history is retained are exactly what the surviving chain says. -/
theorem reads_after_history (ops : List Op) (hw : OpsOk ops) (id : BlockId) (hr : (Track.run ops).Retained id)
    (a : Addr) (k : Key) :
    storageValue (run ops) id a k = (Track.run ops).at (·.storageOf a k) id ∧
    contractNonce (run ops) id a = (Track.run ops).at (·.nonceOf a) id ∧
    contractClass (run ops) id a = (Track.run ops).at (·.classOf a) id := by
  have g := good_run ops hw
  refine ⟨?_, g.read (g.nonce a) id hr, g.read (g.cls a) id hr⟩
  rw [← g.read (g.storage a k) id hr]
  unfold storageValue storageValueWithBlock
  rw [Option.map_map]
  rfl

/-- **C15.** In a database holding the blocks of a chain, the value of a storage cell, a nonce or a contract's
class at block `n` is the one written by the last update at or before `n`, and there is none if no such update
mentions it. -/
theorem C15_historical_reads (ops : List Op) (hw : OpsOk ops) (hb : BlocksOnly ops) (n : Nat) (a : Addr) (k : Key) :
    storageValue (run ops) (.number n) a k = asOf (·.storageOf a k) (Track.run ops).updates n ∧
    contractNonce (run ops) (.number n) a = asOf (·.nonceOf a) (Track.run ops).updates n ∧
    contractClass (run ops) (.number n) a = asOf (·.classOf a) (Track.run ops).updates n := by
  have hlo : (Track.run ops).lo = 0 := lo_noPrune ops hb.noPrune {}
  exact reads_after_history ops hw (.number n) (show (Track.run ops).lo ≤ n by omega) a k

/-- The block reported with a storage value is the block of the last write. -/
theorem C15_block_of_value (ops : List Op) (hw : OpsOk ops) (hb : BlocksOnly ops) (n : Nat) (a : Addr) (k : Key)
    (v : Val) (m : Nat) :
    storageValueWithBlock (run ops) (.number n) a k = some (v, m) ↔
      m ≤ n ∧ (Track.run ops).updates[m]?.bind (·.storageOf a k) = some v ∧
        ∀ j, m < j → j ≤ n → (Track.run ops).updates[j]?.bind (·.storageOf a k) = none := by
  have g := good_run ops hw
  have hlo : (Track.run ops).lo = 0 := lo_noPrune ops hb.noPrune {}
  have ht := g.storage a k
  rw [hlo] at ht
  unfold storageValueWithBlock atBlock
  simp only [Option.map_eq_some_iff, Prod.mk.injEq]
  constructor
  · rintro ⟨⟨m', v'⟩, h1, rfl, rfl⟩
    obtain ⟨g1, g2, g3⟩ := latest_some h1
    refine ⟨g2, ht.sound _ g1, ?_⟩
    intro j hj hn
    cases hc : (Track.run ops).updates[j]?.bind (·.storageOf a k) with
    | none => rfl
    | some w =>
      exfalso
      rcases ht.complete j w hc with hm | ⟨j', w', h3, h4, _⟩
      · have := g3 _ hm hn; simp only at this hj; omega
      · omega
  · rintro ⟨h1, h2, h3⟩
    refine ⟨(m, v), ?_, rfl, rfl⟩
    rw [latest_eq_some_iff ht.keyed]
    refine ⟨?_, h1, ?_⟩
    · rcases ht.complete m v h2 with hm | ⟨j', w', h3, h4, _⟩
      · exact hm
      · omega
    · intro r hr hn
      apply Classical.byContradiction
      intro hne
      have := h3 r.1 (by simp only at hne; omega) hn
      rw [ht.sound r hr] at this
      simp at this

/-- A contract exists at a block exactly if some update at or before it gave it a class. -/
theorem C15_contract_exists (ops : List Op) (hw : OpsOk ops) (id : BlockId) (hr : (Track.run ops).Retained id) (a : Addr) :
    contractExists (run ops) id a = ((Track.run ops).at (·.classOf a) id).isSome := by
  have g := good_run ops hw
  rw [← g.read (g.cls a) id hr]
  have hany : ∀ n, (classRows (run ops) a).any (fun r => decide (r.1 ≤ n)) = (latest (classRows (run ops) a) n).isSome := by
    intro n
    cases hl : latest (classRows (run ops) a) n with
    | none =>
      rw [latest_none] at hl
      simp only [Option.isSome_none, List.any_eq_false, decide_eq_true_eq]
      intro r hr
      have := hl r hr
      omega
    | some r =>
      obtain ⟨h1, h2, _⟩ := latest_some hl
      simp only [Option.isSome_some, List.any_eq_true, decide_eq_true_eq]
      exact ⟨r, h1, h2⟩
  unfold contractExists atBlock
  cases id with
  | latest =>
    simp only [Option.isSome_map]
    cases hn : newest (classRows (run ops) a) with
    | none => rw [newest_none hn]; rfl
    | some r =>
      have := (newest_some hn).1
      cases hc : classRows (run ops) a with
      | nil => rw [hc] at this; simp at this
      | cons _ _ => rfl
  | number n => simp only [Option.isSome_map]; exact hany n
  | hash h =>
    simp only
    cases numberOf (run ops) h with
    | none => rfl
    | some n => simp only [Option.bind_some, Option.isSome_map]; exact hany n

/-- The hypotheses of C15 hold of a concrete history, and the reads are not trivial. -/
example : OpsOk (sampleOps.take 5) ∧ BlocksOnly (sampleOps.take 5) ∧
    storageValue (run (sampleOps.take 5)) (.number 1) 7 2 = some 12 ∧
    storageValue (run (sampleOps.take 5)) (.number 2) 7 2 = some 0 ∧
    storageValue (run (sampleOps.take 5)) (.number 0) 8 1 = none ∧
    contractClass (run (sampleOps.take 5)) (.number 3) 7 = some 51 := by
  refine ⟨fun h u hm => sampleOps_ok h u (List.mem_of_mem_take hm), ?_, ?_⟩
  · unfold BlocksOnly; decide
  · decide

/-! ### C17 -/

/-- Storing the blocks of a chain one after the other in an empty database. -/
def replay (chain : List (Hash × Update)) : List Op := chain.map fun p => .block p.1 p.2

theorem track_replay (chain : List (Hash × Update)) (hd : (chain.map (·.1)).Nodup) :
    Track.run (replay chain) = { chain := chain, lo := 0 } := by
  have gen : ∀ (rest acc : List (Hash × Update)), ((acc ++ rest).map (·.1)).Nodup →
      (replay rest).foldl Track.step { chain := acc, lo := 0 } = { chain := acc ++ rest, lo := 0 } := by
    intro rest
    induction rest with
    | nil => intro acc _; simp [replay]
    | cons p rest ih =>
      intro acc hn
      have hf : ((acc.drop 0).any fun q => q.1 == p.1) = false := by
        rw [List.any_eq_false]
        intro q hq e
        simp only [List.drop_zero] at hq
        rw [List.map_append, List.nodup_append] at hn
        exact hn.2.2 q.1 (List.mem_map.2 ⟨q, hq, rfl⟩) p.1 (by simp) (by simpa using e)
      have h1 : Track.step { chain := acc, lo := 0 } (.block p.1 p.2) = { chain := acc ++ [p], lo := 0 } := by
        unfold Track.step
        simp only [hf, Bool.false_eq_true, ite_false]
      show (replay rest).foldl Track.step (Track.step { chain := acc, lo := 0 } (.block p.1 p.2)) = _
      rw [h1, ih (acc ++ [p]) (by simpa using hn)]
      simp
  exact gen chain [] (by simpa using hd)

theorem chain_wf (ops : List Op) (hw : OpsOk ops) : ∀ p ∈ (Track.run ops).chain, p.2.WF := by
  have gen : ∀ (ops : List Op) (tr : Track), OpsOk ops → (∀ p ∈ tr.chain, p.2.WF) →
      ∀ p ∈ (ops.foldl Track.step tr).chain, p.2.WF := by
    intro ops
    induction ops with
    | nil => intro tr _ h; exact h
    | cons op ops ih =>
      intro tr ho h
      rw [List.foldl_cons]
      apply ih _ fun h u hm => ho h u (List.mem_cons_of_mem _ hm)
      cases op with
      | define _ => exact h
      | block hh u =>
        unfold Track.step
        simp only
        split
        · exact h
        · intro p hp
          simp only [List.mem_append, List.mem_singleton] at hp
          rcases hp with hp | hp
          · exact h p hp
          · rw [hp]; exact ho hh u (by simp)
      | reorg t =>
        unfold Track.step
        simp only
        split
        · intro p hp; exact h p (List.mem_of_mem_take hp)
        · exact h
      | prune _ _ =>
        unfold Track.step
        simp only
        split <;> exact h
  exact gen ops {} hw (by simp)

/-- **C17.** After any history of blocks and reorgs, every read of storage, nonce, class, contract existence and
class declaration, at every block id, gives the answer of a database in which only the blocks of the surviving
chain were ever stored. -/
theorem C17_purge_restores (ops : List Op) (hw : OpsOk ops) (hp : NoPrune ops) (id : BlockId) (a : Addr) (k : Key) (c : Class) :
    let fresh := run (replay (Track.run ops).chain)
    storageValue (run ops) id a k = storageValue fresh id a k ∧
    contractNonce (run ops) id a = contractNonce fresh id a ∧
    contractClass (run ops) id a = contractClass fresh id a ∧
    contractExists (run ops) id a = contractExists fresh id a ∧
    classDeclaredAt (run ops) id c = classDeclaredAt fresh id c := by
  have g := good_run ops hw
  have hlo : (Track.run ops).lo = 0 := lo_noPrune ops hp {}
  have hd : ((Track.run ops).chain.map (·.1)).Nodup := by
    rw [List.nodup_iff_pairwise_ne, List.pairwise_iff_getElem]
    intro i j hi hj hij e
    simp only [List.length_map] at hi hj
    simp only [List.getElem_map] at e
    have := g.huniq (i, (Track.run ops).chain[i].1) ((g.hdr _ _).2 ⟨by omega, _, List.getElem?_eq_getElem hi⟩)
      (j, (Track.run ops).chain[j].1) ((g.hdr _ _).2 ⟨by omega, _, List.getElem?_eq_getElem hj⟩) e
    simp only [Prod.mk.injEq] at this
    omega
  have ht : Track.run (replay (Track.run ops).chain) = Track.run ops := by
    rw [track_replay _ hd]
    cases h : Track.run ops with
    | mk chain lo => rw [h] at hlo; simp only at hlo; rw [hlo]
  have hw2 : OpsOk (replay (Track.run ops).chain) := by
    intro h u hm
    unfold replay at hm
    rw [List.mem_map] at hm
    obtain ⟨p, hp, e⟩ := hm
    simp only [Op.block.injEq] at e
    rw [← e.2]
    exact chain_wf ops hw p hp
  have g2 := good_run _ hw2
  have hr : (Track.run ops).Retained id := by
    cases id with
    | number n => show (Track.run ops).lo ≤ n; omega
    | _ => trivial
  have hr2 : (Track.run (replay (Track.run ops).chain)).Retained id := by rw [ht]; exact hr
  obtain ⟨e1, e2, e3⟩ := reads_after_history ops hw id hr a k
  obtain ⟨f1, f2, f3⟩ := reads_after_history _ hw2 id hr2 a k
  refine ⟨by rw [e1, f1, ht], by rw [e2, f2, ht], by rw [e3, f3, ht], ?_, ?_⟩
  · rw [C15_contract_exists ops hw id hr, C15_contract_exists _ hw2 id hr2, ht]
  · have hdef : ∀ b, (run ops).classDefs.lookup c = some (some b) ↔
        (run (replay (Track.run ops).chain)).classDefs.lookup c = some (some b) := by
      intro b
      rw [g.defs, g2.defs, ht]
    have hnum : ∀ h, numberOf (run ops) h = numberOf (run (replay (Track.run ops).chain)) h := by
      intro h
      rw [g.numberOf, g2.numberOf, ht]
    unfold classDeclaredAt
    simp only [← hnum]
    cases h1 : (run ops).classDefs.lookup c with
    | none =>
      cases h2 : (run (replay (Track.run ops).chain)).classDefs.lookup c with
      | none => rfl
      | some o =>
        cases o with
        | none => rfl
        | some b => rw [← hdef b, h1] at h2; simp at h2
    | some o =>
      cases o with
      | none =>
        cases h2 : (run (replay (Track.run ops).chain)).classDefs.lookup c with
        | none => rfl
        | some o =>
          cases o with
          | none => rfl
          | some b => rw [← hdef b, h1] at h2; simp at h2
      | some b => rw [(hdef b).1 h1]

/-- What the surviving chain is: blocks 0 and 1 of the first fork and the two new blocks. -/
example : OpsOk sampleOps ∧ NoPrune sampleOps ∧ (Track.run sampleOps).chain.map (·.1) = [100, 101, 202, 203] ∧
    storageValue (run sampleOps) .latest 7 1 = some 99 ∧ contractClass (run sampleOps) .latest 7 = some 50 ∧
    contractNonce (run sampleOps) (.hash 203) 8 = none ∧ storageValue (run sampleOps) (.hash 102) 7 2 = none ∧
    classDeclaredAt (run sampleOps) .latest 51 = none := by
  refine ⟨sampleOps_ok, ?_, ?_⟩
  · unfold NoPrune; decide
  · decide

/-! ### C19 -/

/-- The block of the id is still stored. -/
def Kept (db : Db) : BlockId → Prop
  | .latest => True
  | .number n => hasBlock db n
  | .hash h => (numberOf db h).isSome

/-- **C19.** Pruning, after any history, changes no read of storage, nonce, class or existence at a block that is
still stored after it. -/
theorem C19_pruning_preserves_reads (ops : List Op) (hw : OpsOk ops) (point numKept : Nat) (id : BlockId)
    (hk : Kept (prune (run ops) point numKept) id) (a : Addr) (k : Key) :
    storageValue (prune (run ops) point numKept) id a k = storageValue (run ops) id a k ∧
    contractNonce (prune (run ops) point numKept) id a = contractNonce (run ops) id a ∧
    contractClass (prune (run ops) point numKept) id a = contractClass (run ops) id a ∧
    contractExists (prune (run ops) point numKept) id a = contractExists (run ops) id a := by
  have hrun : run (ops ++ [.prune point numKept]) = prune (run ops) point numKept := by
    unfold run; rw [List.foldl_append]; rfl
  have hw2 : OpsOk (ops ++ [.prune point numKept]) := by
    intro h u hm
    simp at hm
    exact hw h u hm
  have g := good_run ops hw
  have g2 := good_run _ hw2
  have htr : Track.run (ops ++ [.prune point numKept]) = (Track.run ops).step (.prune point numKept) := by
    unfold Track.run; rw [List.foldl_append]; rfl
  have hch : (Track.run (ops ++ [.prune point numKept])).chain = (Track.run ops).chain := by
    rw [htr]; unfold Track.step; simp only; split <;> rfl
  have hlo : (Track.run ops).lo ≤ (Track.run (ops ++ [.prune point numKept])).lo := by
    rw [htr]; unfold Track.step; simp only; split
    · simp only; omega
    · exact Nat.le_refl _
  have hups : (Track.run (ops ++ [.prune point numKept])).updates = (Track.run ops).updates := by
    unfold Track.updates; rw [hch]
  rw [← hrun] at hk ⊢
  have hr2 : (Track.run (ops ++ [.prune point numKept])).Retained id := by
    cases id with
    | number n =>
      unfold Kept at hk
      simp only at hk
      rw [g2.hasBlock] at hk
      simp at hk
      exact hk.1
    | _ => trivial
  have hr : (Track.run ops).Retained id := by
    cases id with
    | number n => exact Nat.le_trans hlo hr2
    | _ => trivial
  have hres : (Track.run (ops ++ [.prune point numKept])).resolve id = (Track.run ops).resolve id := by
    cases id with
    | latest => simp only [Track.resolve, hch]
    | number n => rfl
    | hash h =>
      unfold Kept at hk
      simp only at hk
      rw [g2.numberOf] at hk
      rw [← g.numberOf]
      cases hn : (Track.run (ops ++ [.prune point numKept])).resolve (.hash h) with
      | none => rw [hn] at hk; simp at hk
      | some n =>
        rw [← g2.numberOf] at hn
        unfold numberOf at hn ⊢
        simp only [Option.map_eq_some_iff] at hn
        obtain ⟨r, hr1, hr2⟩ := hn
        have hm := List.mem_of_find?_eq_some hr1
        have he : r.2 = h := by simpa using List.find?_some hr1
        obtain ⟨h3, v, hv⟩ := (g2.hdr r.1 r.2).1 hm
        have hm2 := (g.hdr r.1 r.2).2 ⟨by omega, v, by rw [← hch]; exact hv⟩
        cases hf : (run ops).headers.find? fun r => r.2 == h with
        | none =>
          rw [List.find?_eq_none] at hf
          have := hf _ hm2
          simp [he] at this
        | some s =>
          have hs := List.mem_of_find?_eq_some hf
          have hse : s.2 = h := by simpa using List.find?_some hf
          rw [g.huniq s hs (r.1, r.2) hm2 (by simp only; rw [hse, he])]
          simp [hr2]
  have hat : ∀ {γ : Type} (f : Update → Option γ), (Track.run (ops ++ [.prune point numKept])).at f id = (Track.run ops).at f id := by
    intro γ f
    unfold Track.at
    rw [hres, hups]
  obtain ⟨e1, e2, e3⟩ := reads_after_history ops hw id hr a k
  obtain ⟨f1, f2, f3⟩ := reads_after_history _ hw2 id hr2 a k
  refine ⟨by rw [e1, f1, hat], by rw [e2, f2, hat], by rw [e3, f3, hat], ?_⟩
  rw [C15_contract_exists ops hw id hr, C15_contract_exists _ hw2 id hr2, hat]

/-- Pruning does remove rows in the concrete history, and keeps the blocks from 2 on. -/
example : (prune (run sampleOps) 3 1).storage.length < (run sampleOps).storage.length ∧
    Kept (prune (run sampleOps) 3 1) (.number 2) ∧ ¬ Kept (prune (run sampleOps) 3 1) (.number 1) ∧
    storageValue (prune (run sampleOps) 3 1) (.number 2) 7 1 = some 99 := by
  unfold Kept
  decide

end Verif.State
