/-
Property theorems C01-C06 and C10 about the trie.

Every statement speaks about the modelled API only (`MTree.set/get/commit`, `DbTrie.block(s)`) and about the
specification in `Spec.lean` / `SpecStore.lean`.
-/
import Verif.Trie.HistLemmas

namespace Verif.Trie

variable {F : Type} [DecidableEq F] (o : FeltOps F) (H : Nat)

/-- **C01** For every history of blocks and every sequence of reads and writes on the tree opened at the
latest root, every operation succeeds (no error, no panic) and every read returns exactly what a map returns. -/
theorem C01_trie_is_map (hH : 0 < H) (hH2 : H < 256) (bs : List (List (List Bool × F))) (hbs : KeysOk H bs)
    (ops : List (Op F)) (hops : ∀ op ∈ ops, op.key.length = H) :
    ∃ d vs, DbTrie.init.blocks o H bs = .ok (d, vs) ∧
      ∃ t, (MTree.open d.root).run o (d.table.storage d.leaf) H ops
        = .ok (Op.spec o (contentAfter o bs) ops, t) := by
  obtain ⟨d, vs, e, ⟨hl, L, hst, _⟩, _⟩ := blocks_ok hH hH2 bs (DbOk.init (o := o) (H := H)) hbs
  refine ⟨d, vs, e, ?_⟩
  rw [hl]
  obtain ⟨t, et, _⟩ := run_ok hH ops (open_ok hst) hops
  exact ⟨t, et⟩

/-- **C04** For every history of blocks followed by any operations on the opened tree, the commitment computed
by `commit` is the specified commitment of the resulting content. -/
theorem C04_commitment_eq_spec (hH : 0 < H) (hH2 : H < 256) (bs : List (List (List Bool × F)))
    (hbs : KeysOk H bs) (ops : List (Op F)) (hops : ∀ op ∈ ops, op.key.length = H) :
    ∃ d vs as t u, DbTrie.init.blocks o H bs = .ok (d, vs) ∧
      (MTree.open d.root).run o (d.table.storage d.leaf) H ops = .ok (as, t) ∧
      t.commit o (d.table.storage d.leaf) = .ok u ∧
      u.rootCommitment = specRoot o H (Op.specFinal o (contentAfter o bs) ops) := by
  obtain ⟨d, vs, e, ⟨hl, L, hst, _⟩, _⟩ := blocks_ok hH hH2 bs (DbOk.init (o := o) (H := H)) hbs
  rw [← hl] at hst
  have hm := open_ok hst
  obtain ⟨t, et, ht⟩ := run_ok hH ops hm hops
  obtain ⟨u, eu, hu, _⟩ := commit_ok hH hH2 ht
  refine ⟨d, vs, _, t, u, e, et, eu, ?_⟩
  rw [hu, hl]
  rfl

/-- **C02** Two histories (any numbers of blocks, any order of writes, any overwritten or erased values) with
the same final content report the same final commitment. -/
theorem C02_root_history_independent (hH : 0 < H) (hH2 : H < 256)
    (bs bs' : List (List (List Bool × F))) (hbs : KeysOk H bs) (hbs' : KeysOk H bs')
    (hsame : contentAfter o bs = contentAfter o bs') (d d' : DbTrie F) (vs vs' : List (Version F))
    (v v' : Version F)
    (e : DbTrie.init.blocks o H bs = .ok (d, vs)) (e' : DbTrie.init.blocks o H bs' = .ok (d', vs'))
    (hv : vs.getLast? = some v) (hv' : vs'.getLast? = some v') :
    v.commitment = v'.commitment := by
  obtain ⟨_, _, e1, _, _, _, _, h1⟩ := blocks_ok hH hH2 bs (DbOk.init (o := o) (H := H)) hbs
  obtain ⟨_, _, e2, _, _, _, _, h2⟩ := blocks_ok hH hH2 bs' (DbOk.init (o := o) (H := H)) hbs'
  rw [e] at e1; cases e1
  rw [e'] at e2; cases e2
  rw [(h1 v hv).2, (h2 v' hv').2]
  exact congrArg (specRoot o H) hsame

/-- **C03** (first half) In any state, writing a fresh key and erasing it again, in the same block or in two
consecutive blocks, restores the commitment; (second half) a history whose final content is empty has
commitment zero and no root row. -/
theorem C03_erase_fresh_key (hH : 0 < H) (hH2 : H < 256) (bs : List (List (List Bool × F))) (hbs : KeysOk H bs)
    (k : List Bool) (hk : k.length = H) (x : F) (hfresh : contentAfter o bs k = none) :
    ∃ d vs d1 v1 d2 v2 d3 v3 d0 v0, DbTrie.init.blocks o H bs = .ok (d, vs) ∧
      d.block o H [] = .ok (d0, v0) ∧
      d.block o H [(k, x), (k, o.zero)] = .ok (d1, v1) ∧ v1.commitment = v0.commitment ∧
      d.block o H [(k, x)] = .ok (d2, v2) ∧ d2.block o H [(k, o.zero)] = .ok (d3, v3) ∧
      v3.commitment = v0.commitment := by
  obtain ⟨d, vs, e, hd, _⟩ := blocks_ok hH hH2 bs (DbOk.init (o := o) (H := H)) hbs
  have hkey : ∀ y : F, ∀ w ∈ [(k, y)], w.1.length = H := by intro y w hw; simp at hw; subst hw; exact hk
  obtain ⟨d0, v0, e0, _, _, c0, _⟩ := block_ok hH hH2 hd [] (by simp)
  obtain ⟨d1, v1, e1, _, _, c1, _⟩ := block_ok hH hH2 hd [(k, x), (k, o.zero)] (by
    intro w hw; simp at hw; rcases hw with rfl | rfl <;> exact hk)
  obtain ⟨d2, v2, e2, h2, _, c2, _⟩ := block_ok hH hH2 hd [(k, x)] (hkey x)
  obtain ⟨d3, v3, e3, _, _, c3, _⟩ := block_ok hH hH2 h2 [(k, o.zero)] (hkey o.zero)
  have hback : (Content.writes o (Content.writes o (contentAfter o bs) [(k, x)]) [(k, o.zero)])
      = contentAfter o bs := by
    funext q
    simp only [Content.writes, List.foldl_cons, List.foldl_nil, Content.write, if_true]
    by_cases hq : q = k
    · subst hq; simp [hfresh]
    · simp [hq]
  refine ⟨d, vs, d1, v1, d2, v2, d3, v3, d0, v0, e, e0, e1, ?_, e2, e3, ?_⟩
  · rw [c1, c0]; exact congrArg (specRoot o H) hback
  · rw [c3, c0]; exact congrArg (specRoot o H) hback

/-- **C03** (second half). -/
theorem C03_empty_root_zero (hH : 0 < H) (hH2 : H < 256) (bs : List (List (List Bool × F))) (hbs : KeysOk H bs)
    (hempty : ∀ k, contentAfter o bs k = none) :
    ∃ d vs, DbTrie.init.blocks o H bs = .ok (d, vs) ∧ d.root = none ∧
      ∀ v, vs.getLast? = some v → v.commitment = o.zero ∧ v.root = none := by
  obtain ⟨d, vs, e, ⟨_, L, hst, _⟩, _, _, _, hlast⟩ := blocks_ok hH hH2 bs (DbOk.init (o := o) (H := H)) hbs
  have hc : bs.foldl (fun c ws => c.writes o ws) Content.empty = (Content.empty : Content F) := by
    funext k; exact hempty k
  have hroot : d.root = none := by
    cases hr : d.root with
    | none => rfl
    | some i =>
      rw [hr] at hst
      obtain ⟨t, _, hw, hg⟩ := hst
      obtain ⟨k, v, hk⟩ := hw.exists_get
      rw [hg, hc] at hk
      simp [Content.empty] at hk
  refine ⟨d, vs, e, hroot, fun v hv => ?_⟩
  have h := hlast v hv
  rw [hc, specRoot_empty] at h
  exact ⟨h.2, by rw [h.1, hroot]⟩

/-- **C05** Every version stays readable: after any history, the tree opened at the root index recorded for
block `j`, with the leaf values of block `j`, answers any sequence of operations like the map after block `j`,
its stored root hash is the reported commitment, and that commitment is the specified one. -/
theorem C05_versions_reload (hH : 0 < H) (hH2 : H < 256) (bs : List (List (List Bool × F))) (hbs : KeysOk H bs) :
    ∃ d vs, DbTrie.init.blocks o H bs = .ok (d, vs) ∧ vs.length = bs.length ∧
      ∀ j v, vs[j]? = some v →
        v.commitment = specRoot o H (contentAfter o (bs.take (j + 1))) ∧
        (∀ i, v.root = some i → ∃ n, d.table.row i = some (v.commitment, n)) ∧
        (v.root = none → v.commitment = o.zero) ∧
        ∀ ops : List (Op F), (∀ op ∈ ops, op.key.length = H) → ∃ t,
          (MTree.open v.root).run o (d.table.storage (contentAfter o (bs.take (j + 1)))) H ops
            = .ok (Op.spec o (contentAfter o (bs.take (j + 1))) ops, t) := by
  obtain ⟨d, vs, e, _, hlen, _, hvs, _⟩ := blocks_ok hH hH2 bs (DbOk.init (o := o) (H := H)) hbs
  refine ⟨d, vs, e, hlen, fun j v hj => ?_⟩
  obtain ⟨hc, L, hst, _⟩ := hvs j v hj
  refine ⟨hc, ?_, ?_, ?_⟩
  · intro i hi
    rw [hi] at hst
    obtain ⟨t, hs, hw, hg⟩ := hst
    have hh : (d.table.storage ((bs.take (j + 1)).foldl (fun c ws => Content.writes o c ws) Content.empty)).hash i
        = some (t.hash o) := by cases hs <;> assumption
    simp only [Table.storage, Option.map_eq_some_iff] at hh
    obtain ⟨x, hx, hx2⟩ := hh
    refine ⟨x.2, ?_⟩
    rw [hx, hc, ← hg, ← Tree.hash_eq_specRoot hw hH2, ← hx2]
  · intro hn
    rw [hn] at hst
    have h2 := hst.2
    rw [hc, h2, specRoot_empty]
  · intro ops hops
    obtain ⟨t, et, _⟩ := run_ok hH ops (open_ok hst) hops
    exact ⟨t, et⟩

/-- **C06** Incremental equals from scratch: the commitment of any history equals the commitment of a tree built
in memory from nothing by any list of writes that produces the same content. -/
theorem C06_incremental_eq_scratch (hH : 0 < H) (hH2 : H < 256) (bs : List (List (List Bool × F)))
    (hbs : KeysOk H bs) (ws : List (List Bool × F)) (hws : ∀ w ∈ ws, w.1.length = H)
    (hsame : Content.writes o Content.empty ws = contentAfter o bs) (S : Storage F) :
    ∃ d vs t u, DbTrie.init.blocks o H bs = .ok (d, vs) ∧
      MTree.empty.setMany o S H ws = .ok t ∧ t.commit o S = .ok u ∧
      ∀ v, vs.getLast? = some v → u.rootCommitment = v.commitment := by
  obtain ⟨d, vs, e, _, _, _, _, hlast⟩ := blocks_ok hH hH2 bs (DbOk.init (o := o) (H := H)) hbs
  have h0 : MRep o S H (MTree.empty : MTree F) Content.empty [] := ⟨[], by simp [MTree.empty], rfl, rfl⟩
  obtain ⟨t, et, ht, _⟩ := setMany_ok hH ws hws h0
  obtain ⟨u, eu, hu, _⟩ := commit_ok hH hH2 ht
  refine ⟨d, vs, t, u, e, et, eu, fun v hv => ?_⟩
  rw [hu, (hlast v hv).2, hsame]
  rfl

/-- **C10** The node indices reported as removed by a block are, without repetition, exactly the rows that
belong to the trie before the block and not to the trie after it; rows are only added, and every added row
belongs to the new trie. -/
theorem C10_removed_exact (hH : 0 < H) (hH2 : H < 256) (bs : List (List (List Bool × F))) (hbs : KeysOk H bs)
    (ws : List (List Bool × F)) (hws : ∀ w ∈ ws, w.1.length = H) :
    ∃ d vs d' v, DbTrie.init.blocks o H bs = .ok (d, vs) ∧ d.block o H ws = .ok (d', v) ∧
      v.removed.Nodup ∧
      (∀ i, i ∈ v.removed ↔ InTrie d.table d.root i ∧ ¬ InTrie d'.table d'.root i) ∧
      (∀ i x, d.table.row i = some x → d'.table.row i = some x) ∧
      (∀ i, InTrie d'.table d'.root i → InTrie d.table d.root i ∨ d.table.row i = none) ∧
      (∀ i x, d'.table.row i = some x → d.table.row i = none → InTrie d'.table d'.root i) := by
  obtain ⟨d, vs, e, hd, _⟩ := blocks_ok hH hH2 bs (DbOk.init (o := o) (H := H)) hbs
  obtain ⟨d', v, e', _, _, _, hold, hnd, hrm, hnew, hnew2⟩ := block_ok hH hH2 hd ws hws
  exact ⟨d, vs, d', v, e, e', hnd, hrm, hold, hnew, hnew2⟩

/-! ### Concrete instances -/

/-- A toy field for the examples. -/
def toyOps : FeltOps Nat where
  zero := 0
  hash a b := (3 * a + 5 * b + 7) % 1009
  ofBits p := p.foldl (fun a b => 2 * a + if b then 1 else 0) 0
  ofNat n := n
  add a b := (a + b) % 1009

/-- A history with an insertion, a split, an overwrite, an erasure that merges edges and a re-insertion. -/
def toyBlocks : List (List (List Bool × Nat)) :=
  [[([false, false, true], 5)], [([true, false, true], 6), ([true, true, true], 7)],
   [([true, false, true], 0), ([false, false, true], 9)], [([false, true, true], 4)]]

example : KeysOk 3 toyBlocks := by unfold KeysOk toyBlocks; decide

/-- The hypotheses are met and the model really runs: four versions with four distinct commitments. -/
example : (match (DbTrie.init : DbTrie Nat).blocks toyOps 3 toyBlocks with
    | .ok (_, vs) => vs.map (fun v => (v.root, v.commitment, v.removed))
    | .error _ => []) =
    [(some 1, 30, []), (some 6, 435, [1]), (some 9, 355, [2, 6, 4, 5, 3]), (some 13, 988, [9, 7])] := by decide

example : contentAfter toyOps toyBlocks [true, false, false] = none := by decide

/-- Two different histories with the same content. -/
example : (contentAfter toyOps [[([true], 5), ([false], 3)], [([true], 0)]] [false] = some 3) ∧
    (contentAfter toyOps [[([false], 3)]] [false] = some 3) := by decide

end Verif.Trie
