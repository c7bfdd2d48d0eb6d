/-
Property theorems C07-C09 about Merkle proofs.
-/
import Verif.Trie.ProofLemmas
import Verif.Trie.Props

namespace Verif.Trie

variable {F : Type} [DecidableEq F] (o : FeltOps F) (H : Nat)

/-- The tree behind a non-empty version. -/
theorem version_tree (hH : 0 < H) (hH2 : H < 256) (bs : List (List (List Bool × F))) (hbs : KeysOk H bs)
    {d : DbTrie F} {vs : List (Version F)} (e : DbTrie.init.blocks o H bs = .ok (d, vs)) {j : Nat} {v : Version F}
    (hj : vs[j]? = some v) {i : Nat} (hi : v.root = some i) :
    ∃ t L, SRep o (d.table.storage (contentAfter o (bs.take (j + 1)))) (contentAfter o (bs.take (j + 1))) [] i t L ∧
      t.Wf o H ∧ t.get = contentAfter o (bs.take (j + 1)) ∧ v.commitment = t.hash o := by
  obtain ⟨_, _, e', _, _, _, hvs, _⟩ := blocks_ok hH hH2 bs (DbOk.init (o := o) (H := H)) hbs
  rw [e] at e'; cases e'
  obtain ⟨hc, L, hst, _⟩ := hvs j v hj
  rw [hi] at hst
  obtain ⟨t, hs, hw, hg⟩ := hst
  exact ⟨t, L, hs, hw, hg, by rw [hc, ← hg, Tree.hash_eq_specRoot hw hH2]⟩

theorem version_root (hH : 0 < H) (hH2 : H < 256) (bs : List (List (List Bool × F))) (hbs : KeysOk H bs)
    {d : DbTrie F} {vs : List (Version F)} (e : DbTrie.init.blocks o H bs = .ok (d, vs)) {j : Nat} {v : Version F}
    (hj : vs[j]? = some v) (hz : v.commitment ≠ o.zero) : ∃ i, v.root = some i := by
  obtain ⟨_, _, e', _, h⟩ := C05_versions_reload o H hH hH2 bs hbs
  rw [e] at e'; cases e'
  cases hr : v.root with
  | some i => exact ⟨i, rfl⟩
  | none => exact absurd ((h j v hj).2.2.1 hr) hz

/-- **C07** For every history, every version `j` still recorded with a root row and every list of keys
(present or absent, repeated or not), `get_proofs` succeeds, returns one proof per key, and each proof verifies
against the commitment of that version and shows exactly the value (or the absence) of the key at that version.
Every reported node hash is the hash of the node next to it. -/
theorem C07_proofs_complete (hH : 0 < H) (hH2 : H < 256) (bs : List (List (List Bool × F))) (hbs : KeysOk H bs)
    (d : DbTrie F) (vs : List (Version F)) (e : DbTrie.init.blocks o H bs = .ok (d, vs))
    (j : Nat) (v : Version F) (hj : vs[j]? = some v) (i : Nat) (hi : v.root = some i)
    (keys : List (List Bool)) (hk : ∀ k ∈ keys, k.length = H) :
    ∃ ps, getProofs (d.table.storage (contentAfter o (bs.take (j + 1)))) H i keys = .ok ps ∧
      ps.length = keys.length ∧
      ∀ (n : Nat) k p, keys[n]? = some k → ps[n]? = some p →
        verify o v.commitment k (p.map (·.1)) = some (contentAfter o (bs.take (j + 1)) k) ∧
        ∀ x ∈ p, x.2 = x.1.hash o := by
  obtain ⟨t, L, hs, hw, hg, hc⟩ := version_tree o H hH hH2 bs hbs e hj hi
  obtain ⟨ps, e1, hlen, hps⟩ := proofKeys_ok hH2 hs hw keys ⟨[], []⟩ hk ⟨by simp, by simp⟩
  rw [hc, ← hg]
  exact ⟨ps, by rw [hg]; exact e1, hlen, hps⟩

/-- `get_proof` is `get_proofs` for one key: it succeeds and its proof verifies. -/
theorem C07_proof_complete (hH : 0 < H) (hH2 : H < 256) (bs : List (List (List Bool × F))) (hbs : KeysOk H bs)
    (d : DbTrie F) (vs : List (Version F)) (e : DbTrie.init.blocks o H bs = .ok (d, vs))
    (j : Nat) (v : Version F) (hj : vs[j]? = some v) (i : Nat) (hi : v.root = some i)
    (k : List Bool) (hk : k.length = H) :
    ∃ p, getProof (d.table.storage (contentAfter o (bs.take (j + 1)))) H i k = .ok p ∧
      verify o v.commitment k (p.map (·.1)) = some (contentAfter o (bs.take (j + 1)) k) ∧
      ∀ x ∈ p, x.2 = x.1.hash o := by
  obtain ⟨ps, e1, hlen, hps⟩ := C07_proofs_complete o H hH hH2 bs hbs d vs e j v hj i hi [k] (by simp [hk])
  match ps, hlen with
  | [p], _ =>
    refine ⟨p, ?_, hps 0 k p rfl rfl⟩
    simp [getProof, e1, bind, Except.bind, pure, Except.pure]

/-- **C08** Any proof whatsoever that verifies against the commitment of a version for a key shows the value (or
absence) that the trie really has at that key, or else it contains a node that collides with a different node of
the genuine proof for that key.  No assumption on the hash function. -/
theorem C08_proofs_sound (hH : 0 < H) (hH2 : H < 256) (bs : List (List (List Bool × F))) (hbs : KeysOk H bs)
    (d : DbTrie F) (vs : List (Version F)) (e : DbTrie.init.blocks o H bs = .ok (d, vs))
    (j : Nat) (v : Version F) (hj : vs[j]? = some v) (i : Nat) (hi : v.root = some i)
    (k : List Bool) (hk : k.length = H) (p : List (PNode F)) (a : Option F)
    (hp : verify o v.commitment k p = some a) :
    a = contentAfter o (bs.take (j + 1)) k ∨
    ∃ q, getProof (d.table.storage (contentAfter o (bs.take (j + 1)))) H i k = .ok q ∧
      Collision o p (q.map (·.1)) := by
  obtain ⟨q, eq, hq, _⟩ := C07_proof_complete o H hH hH2 bs hbs d vs e j v hj i hi k hk
  rcases verify_unique p _ _ _ _ _ hp hq with h | h
  · exact .inl h
  · exact .inr ⟨q, eq, h⟩

/-- **C09** Two versions, of the same or of different histories, with the same non-zero commitment have the same content,
or else the genuine proofs of some key in the two tries exhibit a hash collision. -/
theorem C09_equal_roots_equal_content (hH : 0 < H) (hH2 : H < 256)
    (bs bs' : List (List (List Bool × F))) (hbs : KeysOk H bs) (hbs' : KeysOk H bs')
    (d d' : DbTrie F) (vs vs' : List (Version F))
    (e : DbTrie.init.blocks o H bs = .ok (d, vs)) (e' : DbTrie.init.blocks o H bs' = .ok (d', vs'))
    (j j' : Nat) (v v' : Version F) (hj : vs[j]? = some v) (hj' : vs'[j']? = some v')
    (hz : v.commitment ≠ o.zero) (heq : v.commitment = v'.commitment) :
    contentAfter o (bs.take (j + 1)) = contentAfter o (bs'.take (j' + 1)) ∨
    ∃ i i' k p p', v.root = some i ∧ v'.root = some i' ∧
      getProof (d.table.storage (contentAfter o (bs.take (j + 1)))) H i k = .ok p ∧
      getProof (d'.table.storage (contentAfter o (bs'.take (j' + 1)))) H i' k = .ok p' ∧
      Collision o (p.map (·.1)) (p'.map (·.1)) := by
  rcases Classical.em (contentAfter o (bs.take (j + 1)) = contentAfter o (bs'.take (j' + 1))) with h | h
  · exact .inl h
  · right
    obtain ⟨i, hi⟩ := version_root o H hH hH2 bs hbs e hj hz
    obtain ⟨i', hi'⟩ := version_root o H hH hH2 bs' hbs' e' hj' (heq ▸ hz)
    have : ∃ k, contentAfter o (bs.take (j + 1)) k ≠ contentAfter o (bs'.take (j' + 1)) k := by
      apply Classical.byContradiction
      intro hn
      exact h (funext fun k => Classical.byContradiction fun hk => hn ⟨k, hk⟩)
    obtain ⟨k, hk⟩ := this
    have hlen : k.length = H := by
      apply Classical.byContradiction
      intro hne
      obtain ⟨t, _, _, hw, hg, _⟩ := version_tree o H hH hH2 bs hbs e hj hi
      obtain ⟨t', _, _, hw', hg', _⟩ := version_tree o H hH hH2 bs' hbs' e' hj' hi'
      rw [← hg, ← hg', hw.get_none k hne, hw'.get_none k hne] at hk
      exact hk rfl
    obtain ⟨p, ep, hp, _⟩ := C07_proof_complete o H hH hH2 bs hbs d vs e j v hj i hi k hlen
    obtain ⟨p', ep', hp', _⟩ := C07_proof_complete o H hH hH2 bs' hbs' d' vs' e' j' v' hj' i' hi' k hlen
    rw [← heq] at hp'
    rcases verify_unique _ _ _ _ _ _ hp hp' with h | h
    · exact absurd h hk
    · exact ⟨i, i', k, p, p', hi, hi', ep, ep', h⟩

/-! ### Concrete instances -/

/-- Proofs of the toy history: one member, one absent key, the proofs being different and accepted. -/
example : (match (DbTrie.init : DbTrie Nat).blocks toyOps 3 toyBlocks with
    | .ok (d, _) => (match getProofs (d.table.storage (contentAfter toyOps toyBlocks)) 3 13
            [[true, true, true], [true, false, false], [false, true, true]] with
        | .ok ps => ps.map (fun p => p.map (·.1))
        | .error _ => [])
    | .error _ => []) =
    [[.binary 252 45, .edge 7 [true, true]], [.binary 252 45, .edge 7 [true, true]],
      [.binary 252 45, .binary 40 25, .edge 4 [true]]] := by decide

example : verify toyOps 988 [true, true, true] [.binary 252 45, .edge 7 [true, true]] = some (some 7) ∧
    verify toyOps 988 [true, false, false] [.binary 252 45, .edge 7 [true, true]] = some none ∧
    verify toyOps 988 [false, true, true] [.binary 252 45, .binary 40 25, .edge 4 [true]] = some (some 4) := by
  decide

/-- A forged value is rejected. -/
example : verify toyOps 988 [true, true, true] [.binary 252 45, .edge 8 [true, true]] = none := by decide

end Verif.Trie
