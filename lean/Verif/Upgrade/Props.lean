import Verif.Upgrade.Lemmas
/-
C102: upgrading an old database keeps, or repairs, its event index.
-/
namespace Verif.Upgrade
open Verif.Events

/-! ### examples -/

/-- The old database of a chain in which every block has a row with its Bloom filter. -/
def oldFrom (c : Cfg) (chain : List Body) : Old :=
  ⟨headersOf chain, txsOf chain, chain.zipIdx.map fun bn => (bn.2, blockBloom c bn.1.events)⟩

theorem oldFrom_ok (c : Cfg) {chain : List Body} (h : (chain.map (·.hash)).Nodup) : OldOf c (oldFrom c chain) chain := by
  refine ⟨h, rfl, rfl, fun n b hb => .inl ?_⟩
  have hn := kept_nodup chain 0
  rw [kept_zero] at hn
  exact lookup_map_nodup (fun b : Body => blockBloom c b.events) hn (List.mem_zipIdx_iff_getElem?.2 hb)

namespace Example

/-- Seventeen blocks, of which block 9 has an event and block 16 another; ranges have eight blocks. -/
def chain : List Body := (List.range 17).map fun n =>
  if n = 9 then blk 10 [[ev 1 [5]]] else if n = 16 then blk 17 [[ev 2 []]] else blk (n + 1) []

/-- The chain without its last block: it ends with a complete range. -/
def chain16 : List Body := chain.take 16

/-- The second stored filter and the saved running filter know nothing. -/
def damaged (chain : List Body) : Db :=
  ⟨headersOf chain, txsOf chain, [aggNew tiny 0, aggNew tiny 8], (aggNew tiny 16, chain.length)⟩

theorem quiet : ∀ n, n ≤ 7 → ∀ b, chain[n]? = some b → b.events = [] := by
  intro n hn b hb
  match n, hn, hb with
  | 0, _, hb | 1, _, hb | 2, _, hb | 3, _, hb | 4, _, hb | 5, _, hb | 6, _, hb | 7, _, hb =>
    rw [← Option.some.inj hb]; rfl

theorem damaged_ok (ch : List Body) (h16 : 16 ≤ ch.length) (h24 : ch.length < 24) (hp : ch <+: chain) :
    Damaged tiny 8 (damaged ch) ch := by
  refine ⟨rfl, rfl, ?_, ?_, (show [0, 8].Nodup by decide), ?_⟩
  · intro f hf
    simp only [damaged, List.mem_cons, List.not_mem_nil, or_false] at hf
    rcases hf with rfl | rfl
    · exact ⟨by decide, by decide, by decide, by simp [aggNew, tiny, Cfg.len]; omega⟩
    · exact ⟨by decide, by decide, by decide, by simp [aggNew, tiny, Cfg.len]; omega⟩
  · intro k hk
    have h8 : tiny.len = 8 := rfl
    rw [h8] at hk ⊢
    have : k = 0 ∨ k = 1 := by omega
    rcases this with rfl | rfl
    · exact ⟨_, List.Mem.head _, rfl⟩
    · exact ⟨_, List.Mem.tail _ (List.Mem.head _), rfl⟩
  · intro f hf hlt
    simp only [damaged, List.mem_cons, List.not_mem_nil, or_false] at hf
    rcases hf with rfl | rfl
    · intro n b e _ g2 g3 he
      have hn : n ≤ 7 := g2
      have hget := prefix_get hp (List.getElem?_eq_some_iff.1 g3).1
      rw [quiet n hn b (by rw [hget]; exact g3)] at he
      simp at he
    · exact absurd hlt (by decide)

end Example

/-! ### the theorems -/

/-- The event index of an old database, one Bloom filter per block, becomes one that works: opening the upgraded database
succeeds, and from then on, whatever happens, blocks with wanted events are reported and queries are answered in full. -/
theorem C102_index_kept (c : Cfg) (old : Old) (chain : List Body) (h : OldOf c old chain) :
    ∃ db, (revision66 c old).bind (revision68 c) = some db ∧ db.headers = old.headers ∧ db.txs = old.txs ∧
      WorksFrom c db chain := by
  obtain ⟨db, h1, h2⟩ := revision66_inv h
  obtain ⟨db', h3, h4, h5, h6, h7, -⟩ := revision68_inv h2
  refine ⟨db', by rw [h1]; exact h3, ?_, ?_, worksFrom_of_inv h4 ⟨h5, h6, h7⟩⟩
  · rw [h4.headers, h.headers, kept_zero]; rfl
  · rw [h4.txs, h.txs, kept_zero]; rfl

example : OldOf tiny (oldFrom tiny Example.chain) Example.chain := oldFrom_ok _ (by decide)

/-- Nothing is invented: the filters of the upgraded database are those of the complete ranges of blocks, one for each. -/
theorem C102_ranges (c : Cfg) (old : Old) (chain : List Body) (h : OldOf c old chain) (db : Db)
    (hdb : (revision66 c old).bind (revision68 c) = some db) :
    (db.filters.map (·.fromBlock)).Nodup ∧
    ∀ n, n ∈ db.filters.map (·.fromBlock) ↔ n % c.len = 0 ∧ n + c.len ≤ chain.length := by
  obtain ⟨db0, h1, h2⟩ := revision66_inv h
  obtain ⟨db', h3, h4, -⟩ := revision68_inv h2
  rw [h1, Option.bind_some, h3, Option.some.injEq] at hdb
  subst hdb
  have hp := len_pos c
  refine ⟨h4.fNodup, fun n => ⟨fun hn => ?_, fun ⟨g1, g2⟩ => ?_⟩⟩
  · obtain ⟨f, hf, rfl⟩ := List.mem_map.1 hn
    obtain ⟨e1, e2, e3, -⟩ := h4.fOk f hf
    have := e1.ok.to
    exact ⟨e2, by omega⟩
  · have e := Nat.div_add_mod n c.len
    rw [g1, Nat.mul_comm] at e
    obtain ⟨f, hf, hff⟩ := h4.fAll (n / c.len) (by omega) (by omega)
    exact List.mem_map.2 ⟨f, hf, by omega⟩

example : ∃ db, (revision66 tiny (oldFrom tiny Example.chain)).bind (revision68 tiny) = some db :=
  (C102_index_kept _ _ _ (oldFrom_ok tiny (chain := Example.chain) (by decide))).imp fun _ h => h.1

/-- The repair: whatever the stored filters from block `first` on say, and whatever the saved running filter says, after
revision 74 the index of an unpruned Sepolia database works, unless its last block is the last one of a range. -/
theorem C102_repaired_partial (c : Cfg) (sepolia first : Nat) (db : Db) (chain : List Body) (d : Damaged c first db chain)
    (hg : ∀ b, chain[0]? = some b → b.hash = sepolia) (hf : first < chain.length) (hlen : c.len ≤ first)
    (hfl : first % c.len = 0) (hend : chain.length % c.len ≠ 0) :
    ∃ db', revision74 c sepolia first db = some db' ∧ db'.headers = db.headers ∧ db'.txs = db.txs ∧
      WorksFrom c db' chain := by
  obtain ⟨db', h1, h2, h3, h4, h5⟩ := revision74_inv d hg hf hlen hfl hend
  refine ⟨db', h1, ?_, ?_, worksFrom_of_inv h2 ⟨h3, h4, h5⟩⟩
  · rw [h2.headers, d.headers, kept_zero]; rfl
  · rw [h2.txs, d.txs, kept_zero]; rfl

/-- The values of the released program meet the conditions on the first block. -/
example : rangeLen ≤ firstDamaged ∧ firstDamaged % rangeLen = 0 := by decide

/-- A damaged database: before the repair the event of block 9 is not found, after it is. -/
example : Damaged tiny 8 (Example.damaged Example.chain) Example.chain ∧ 8 < Example.chain.length ∧
    Example.chain.length % tiny.len ≠ 0 ∧
    ((openStorage tiny (Example.damaged Example.chain)).map fun s => reported tiny s 9 9 [1#256] []) = some [] ∧
    (((revision74 tiny 1 8 (Example.damaged Example.chain)).bind (openStorage tiny)).map fun s => reported tiny s 9 9 [1#256] []) =
      some [9] :=
  ⟨Example.damaged_ok _ (by decide) (by decide) (List.prefix_refl _), by decide, by decide, by decide, by decide⟩

/-- Revision 74 does not touch the database of another network, or one that ends before the first damaged range. -/
theorem C102_untouched (c : Cfg) (sepolia first : Nat) (db : Db) (chain : List Body) (d : Damaged c first db chain)
    (h : chain.length ≤ first ∨ ∀ b, chain[0]? = some b → b.hash ≠ sepolia) :
    revision74 c sepolia first db = some db := by
  unfold revision74
  cases chain with
  | nil =>
    have : headerHash db 0 = none := by unfold headerHash; rw [d.headers]; rfl
    rw [this]
  | cons b chain =>
    rw [damaged_header d, damaged_latest d]
    simp only
    by_cases hs : b.hash = sepolia
    · rw [if_neg (by simpa using hs)]
      rcases h with h | h
      · rw [if_neg (by simp)]
        simp only
        rw [if_pos]
        simp only [List.length_cons] at h ⊢
        omega
      · exact absurd hs (h b rfl)
    · rw [if_pos hs]

example : Damaged tiny 8 (Example.damaged Example.chain) Example.chain ∧ ∀ b, Example.chain[0]? = some b → b.hash ≠ 7 :=
  ⟨Example.damaged_ok _ (by decide) (by decide) (List.prefix_refl _), by
    intro b hb; rw [← Option.some.inj hb]; decide⟩

/-- All the migrations of an old database, unless it is a Sepolia database that ends with the last block of a range. -/
theorem C102_upgrade_partial (c : Cfg) (sepolia first : Nat) (old : Old) (chain : List Body) (h : OldOf c old chain)
    (hlen : c.len ≤ first) (hfl : first % c.len = 0)
    (hok : (∀ b, chain[0]? = some b → b.hash ≠ sepolia) ∨ chain.length ≤ first ∨ chain.length % c.len ≠ 0) :
    ∃ db, upgrade c sepolia first old = some db ∧ db.headers = old.headers ∧ db.txs = old.txs ∧ WorksFrom c db chain := by
  obtain ⟨db, h1, h2⟩ := revision66_inv h
  obtain ⟨db', h3, h4, h5, h6, h7, -⟩ := revision68_inv h2
  have hb : (revision66 c old).bind (revision68 c) = some db' := by rw [h1]; exact h3
  have hh : db'.headers = old.headers := by rw [h4.headers, h.headers, kept_zero]; rfl
  have ht : db'.txs = old.txs := by rw [h4.txs, h.txs, kept_zero]; rfl
  have d := damaged_of_inv first h4
  unfold upgrade
  rw [hb, Option.bind_some]
  by_cases hu : chain.length ≤ first ∨ ∀ b, chain[0]? = some b → b.hash ≠ sepolia
  · exact ⟨db', C102_untouched c sepolia first db' chain d hu, hh, ht, worksFrom_of_inv h4 ⟨h5, h6, h7⟩⟩
  · rw [not_or] at hu
    have hs : ∀ b, chain[0]? = some b → b.hash = sepolia := by
      intro b hb
      apply Classical.byContradiction
      intro hne
      apply hu.2
      intro b' hb'
      rw [hb, Option.some.injEq] at hb'
      subst hb'
      exact hne
    have hend : chain.length % c.len ≠ 0 := by
      rcases hok with hok | hok | hok
      · exact absurd hok hu.2
      · exact absurd hok hu.1
      · exact hok
    obtain ⟨db'', g1, g2, g3, g4⟩ := C102_repaired_partial c sepolia first db' chain d hs (by omega) hlen hfl hend
    exact ⟨db'', g1, by rw [g2, hh], by rw [g3, ht], g4⟩

example : OldOf tiny (oldFrom tiny Example.chain) Example.chain ∧ Example.chain.length % tiny.len ≠ 0 ∧
    ((upgrade tiny 1 8 (oldFrom tiny Example.chain)).bind (openStorage tiny)).map (fun s => reported tiny s 0 16 [1#256, 2#256] []) =
      some [9, 16] := ⟨oldFrom_ok _ (by decide), by decide, by decide⟩

/-- F96. If the last block is the last one of a range, the repair stores the filter of that complete range as the running
filter. The next block lies outside its range: storing it panics, and after every restart it does so again. -/
theorem C102_boundary_violated (c : Cfg) (sepolia first : Nat) (db : Db) (chain : List Body) (d : Damaged c first db chain)
    (hg : ∀ b, chain[0]? = some b → b.hash = sepolia) (hf : first < chain.length) (hlen : c.len ≤ first)
    (hfl : first % c.len = 0) (hend : chain.length % c.len = 0) :
    ∃ db' s, revision74 c sepolia first db = some db' ∧ openStorage c db' = some s ∧
      (∀ b, (∀ x ∈ chain, x.hash ≠ b.hash) → step c s (.block b) = none) ∧
      step c s .crash = some s ∧ step c s .shutdown = some s := by
  have hp := len_pos c
  obtain ⟨fs, a, h1, m, h3, h4⟩ := revision74_result d hg hf hlen hfl
  have hto := h3.ok.to
  have hmax : (db.headers.map (·.1)).max? = some (chain.length - 1) := by
    rw [d.headers, max_headers, if_neg (by intro e; subst e; simp at hf)]
  have hopen : openStorage c { db with filters := fs, stored := (a, chain.length) } =
      some { db := { db with filters := fs, stored := (a, chain.length) }, mem := { running := a, next := chain.length, cache := [] } } := by
    unfold openStorage loadRunning latestBlock
    simp only [hmax]
    rw [if_pos (by omega)]
    rfl
  have hw : (chain.length - 1) % c.len = c.len - 1 := by
    have hd := Nat.div_add_mod chain.length c.len
    rw [hend] at hd
    obtain ⟨k, hk⟩ : ∃ k, chain.length / c.len = k + 1 := Nat.exists_eq_succ_of_ne_zero (by
      intro e; rw [e] at hd; omega)
    rw [hk, Nat.mul_add, Nat.mul_one] at hd
    rw [show chain.length - 1 = c.len * k + (c.len - 1) by omega, Nat.mul_add_mod, Nat.mod_eq_of_lt (by omega)]
  refine ⟨_, _, h1, hopen, ?_, hopen, hopen⟩
  intro b hb
  simp only [step]
  unfold storeBlock nextNumber latestBlock
  simp only [hmax]
  have hk : ¬ (db.headers.any fun h => h.2 == b.hash) = true := by
    rw [d.headers, List.any_eq_true]
    rintro ⟨x, hx, he⟩
    unfold headersOf at hx
    obtain ⟨bn, hbn, rfl⟩ := List.mem_map.1 hx
    have := List.mem_zipIdx_iff_getElem?.1 hbn
    exact hb bn.1 (List.mem_of_getElem? this) (by simpa using he)
  rw [if_neg hk]
  unfold upsertFilters
  have : aggInsert c a (blockBloom c (b.txs.flatMap (·.2))) (chain.length - 1 + 1) = none := by
    unfold aggInsert
    rw [if_neg (by omega)]
  simp only [this]
  rfl

/-- A Sepolia database of two complete ranges. -/
example : Damaged tiny 8 (Example.damaged Example.chain16) Example.chain16 ∧ 8 < Example.chain16.length ∧
    Example.chain16.length % tiny.len = 0 ∧
    (((revision74 tiny 1 8 (Example.damaged Example.chain16)).bind (openStorage tiny)).map fun s =>
      (step tiny s (.block (blk 17 [[ev 2 []]]))).isSome) = some false :=
  ⟨Example.damaged_ok _ (by decide) (by decide) (List.take_prefix _ _), by decide, by decide, by decide⟩

/-- F97. Also then the stored filter of the last range is not rebuilt, so its events stay lost. -/
theorem C102_last_range_violated :
    Damaged tiny 8 (Example.damaged Example.chain16) Example.chain16 ∧
    (((revision74 tiny 1 8 (Example.damaged Example.chain16)).bind (openStorage tiny)).map fun s =>
      pageAt tiny 100 ⟨none, none, [1#256], [], 5, 0⟩ s none) = some (.ok ⟨[], none⟩) ∧
    answer Example.chain16 [1#256] [] 0 15 = [⟨ev 1 [5], 10, 9, 1000, 0, 0⟩] :=
  ⟨Example.damaged_ok _ (by decide) (by decide) (List.take_prefix _ _), by decide, by decide⟩

/-- F98. A database without block 0 is taken for an empty one: a pruned Sepolia database is left as it is, damaged. -/
theorem C102_pruned_violated :
    (∀ (c : Cfg) (sepolia first : Nat) (db : Db), (∀ h, (0, h) ∉ db.headers) → revision74 c sepolia first db = some db) ∧
    (let db := prune tiny (Example.damaged Example.chain) 16 8
     (∀ h, (0, h) ∉ db.headers) ∧ db.headers.lookup 9 = some 10 ∧ db.txs.lookup 9 = some [(1000, [ev 1 [5]])] ∧
     ((revision74 tiny 1 8 db).bind (openStorage tiny)).map (fun s => reported tiny s 9 16 [1#256] []) = some []) := by
  refine ⟨?_, ?_, by decide, by decide, by decide⟩
  · intro c sepolia first db h
    have : headerHash db 0 = none := by
      unfold headerHash
      cases hl : db.headers.lookup 0 with
      | none => rfl
      | some x =>
        exfalso
        have key : ∀ l : List (Nat × Nat), l.lookup 0 = some x → (0, x) ∈ l := by
          intro l
          induction l with
          | nil => intro h; simp at h
          | cons y l ih =>
            obtain ⟨y1, y2⟩ := y
            intro hl
            rw [List.lookup_cons] at hl
            by_cases h0 : (0 == y1) = true
            · rw [h0] at hl
              simp only [Option.some.injEq] at hl
              have : 0 = y1 := by simpa using h0
              subst this; subst hl
              exact List.Mem.head _
            · simp only [Bool.not_eq_true] at h0
              rw [h0] at hl
              exact List.Mem.tail _ (ih hl)
        exact h x (key _ hl)
    unfold revision74
    rw [this]
  · intro h hm
    have : ((prune tiny (Example.damaged Example.chain) 16 8).headers.any fun r => r.1 == 0) = true :=
      List.any_eq_true.2 ⟨_, hm, rfl⟩
    revert this
    decide

end Verif.Upgrade
