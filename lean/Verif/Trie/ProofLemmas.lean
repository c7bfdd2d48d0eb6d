/-
Lemmas about proof generation and verification.
-/
import Verif.Trie.HistLemmas
import Verif.Trie.SpecProof

namespace Verif.Trie

variable {F : Type} [DecidableEq F] {o : FeltOps F} {S : Storage F}

/-- Cache entries agree with the storage. -/
def CachesOk (S : Storage F) (c : Caches F) : Prop :=
  (∀ i n, c.nodes.lookup i = some n → S.get i = some n) ∧ (∀ i h, c.hashes.lookup i = some h → S.hash i = some h)

omit [DecidableEq F] in
theorem Caches.node_ok {c : Caches F} (hc : CachesOk S c) {i n} (h : S.get i = some n) :
    ∃ c', c.node S i = .ok (n, c') ∧ CachesOk S c' := by
  unfold Caches.node
  cases hl : c.nodes.lookup i with
  | some m =>
    have := hc.1 i m hl
    rw [h] at this
    cases this
    exact ⟨c, rfl, hc⟩
  | none =>
    simp only [h]
    refine ⟨_, rfl, ?_, hc.2⟩
    intro j m hj
    simp only [List.lookup_cons] at hj
    split at hj
    · rename_i heq
      simp at heq hj
      rw [heq, ← hj, h]
    · exact hc.1 j m hj

omit [DecidableEq F] in
theorem Caches.hash_ok {c : Caches F} (hc : CachesOk S c) {i n} (h : S.hash i = some n) :
    ∃ c', c.hash S i = .ok (n, c') ∧ CachesOk S c' := by
  unfold Caches.hash
  cases hl : c.hashes.lookup i with
  | some m =>
    have := hc.2 i m hl
    rw [h] at this
    cases this
    exact ⟨c, rfl, hc⟩
  | none =>
    simp only [h]
    refine ⟨_, rfl, hc.1, ?_⟩
    intro j m hj
    simp only [List.lookup_cons] at hj
    split at hj
    · rename_i heq
      simp at heq hj
      rw [heq, ← hj, h]
    · exact hc.2 j m hj

omit [DecidableEq F] in
theorem SRep.hash_eq {lk} {pfx i t L} (h : SRep o S lk pfx i t L) : S.hash i = some (t.hash o) := by
  cases h <;> assumption

/-- Honest proofs verify and show the content. -/
theorem proofLoop_ok {key : List Bool} : ∀ fuel pfx n k i t L (c : Caches F),
    SRep o S S.leaf pfx i t L → t.Wf o n → k.length = n → key = pfx ++ k → CachesOk S c → n < 256 → n < fuel →
    ∃ proof c', proofLoop S key fuel i pfx.length c = .ok (proof, c') ∧ CachesOk S c' ∧
      verify o (t.hash o) k (proof.map (·.1)) = some (t.get k) ∧ ∀ x ∈ proof, x.2 = x.1.hash o := by
  intro fuel
  induction fuel with
  | zero => intro pfx n k i t L c _ _ _ _ _ _ h; omega
  | succ fuel ih =>
    intro pfx n k i t L c hs hw hk hkey hc hn hf
    have hhash := hs.hash_eq
    cases hs with
    | @binary _ _ l r tl tr Ll Lr g hh hl hr =>
      obtain ⟨m, rfl, hwl, hwr⟩ := hw
      cases k with
      | nil => simp at hk
      | cons b k =>
        simp only [List.length_cons, Nat.add_right_cancel_iff] at hk
        obtain ⟨c1, e1, hc1⟩ := Caches.node_ok hc g
        obtain ⟨c2, e2, hc2⟩ := Caches.hash_ok hc1 hhash
        have hbit : key[pfx.length]? = some b := by rw [hkey]; exact key_get _ _ _
        have hstep : proofStep S key pfx.length (.binary l r) =
            .ok (.binary (tl.hash o) (tr.hash o), some (if b then r else l), pfx.length + 1) := by
          simp [proofStep, hbit, needHash, hl.hash_eq, hr.hash_eq, bind, Except.bind, pure, Except.pure]
        cases b
        · obtain ⟨p, c3, e3, hc3, hv, hx⟩ := ih (pfx ++ [false]) m k l tl Ll c2 hl hwl hk (by simp [hkey]) hc2
            (by omega) (by omega)
          simp only [List.length_append, List.length_cons, List.length_nil, Nat.zero_add] at e3
          refine ⟨(.binary (tl.hash o) (tr.hash o), (Tree.bin tl tr).hash o) :: p, c3, ?_, hc3, ?_, ?_⟩
          · simp only [proofLoop, bind, Except.bind, e1, hstep, e2, Bool.false_eq_true, if_false, e3, pure,
              Except.pure]
          · simp only [List.map_cons, verify, PNode.hash, Tree.hash, FeltOps.binHash, if_true, Bool.false_eq_true,
              if_false, Tree.get]
            exact hv
          · intro x hx'
            rcases List.mem_cons.1 hx' with rfl | hx'
            · rfl
            · exact hx x hx'
        · obtain ⟨p, c3, e3, hc3, hv, hx⟩ := ih (pfx ++ [true]) m k r tr Lr c2 hr hwr hk (by simp [hkey]) hc2
            (by omega) (by omega)
          simp only [List.length_append, List.length_cons, List.length_nil, Nat.zero_add] at e3
          refine ⟨(.binary (tl.hash o) (tr.hash o), (Tree.bin tl tr).hash o) :: p, c3, ?_, hc3, ?_, ?_⟩
          · simp only [proofLoop, bind, Except.bind, e1, hstep, e2, if_true, e3, pure, Except.pure]
          · simp only [List.map_cons, verify, PNode.hash, Tree.hash, FeltOps.binHash, if_true, Tree.get]
            exact hv
          · intro x hx'
            rcases List.mem_cons.1 hx' with rfl | hx'
            · rfl
            · exact hx x hx'
    | @leafBinary _ _ vl vr g hh h1 h2 =>
      obtain ⟨m, rfl, hwl, hwr⟩ := hw
      obtain ⟨rfl, _⟩ := hwl
      match k, hk with
      | [b], _ =>
        obtain ⟨c1, e1, hc1⟩ := Caches.node_ok hc g
        obtain ⟨c2, e2, hc2⟩ := Caches.hash_ok hc1 hhash
        have htake : key.take pfx.length = pfx := by rw [hkey]; simp
        have hstep : proofStep S key pfx.length .leafBinary = .ok (.binary vl vr, none, pfx.length) := by
          have : pfx.length ≤ key.length := by rw [hkey]; simp
          simp [proofStep, this, htake, needLeaf, h1, h2, bind, Except.bind, pure, Except.pure]
        refine ⟨[(.binary vl vr, ((Tree.leaf vl).bin (Tree.leaf vr)).hash o)], c2, ?_, hc2, ?_, ?_⟩
        · simp only [proofLoop, bind, Except.bind, e1, hstep, e2, pure, Except.pure]
        · cases b <;> simp [verify, PNode.hash, Tree.hash, FeltOps.binHash, Tree.get]
        · intro x hx'
          simp at hx'
          subst hx'
          rfl
    | @edge _ _ ch p t L g hh hcc =>
      obtain ⟨m, rfl, hp, hce, hwc⟩ := hw
      have hpos := List.length_pos_iff.2 hp
      obtain ⟨c1, e1, hc1⟩ := Caches.node_ok hc g
      obtain ⟨c2, e2, hc2⟩ := Caches.hash_ok hc1 hhash
      have hstep : proofStep S key pfx.length (.edge ch p) =
          .ok (.edge (t.hash o) p, if p <+: k then some ch else none, pfx.length + p.length) := by
        have hle : pfx.length + p.length ≤ key.length := by rw [hkey]; simp; omega
        have hdrop : key.drop pfx.length = k := by rw [hkey]; simp
        have : (k.take p.length = p) ↔ p <+: k := by
          rw [List.prefix_iff_eq_take]
          exact ⟨fun h => h.symm, fun h => h.symm⟩
        simp only [proofStep, hle, if_true, hdrop, needHash, hcc.hash_eq, bind, Except.bind, pure, Except.pure,
          this]
      cases k with
      | nil => simp at hk; omega
      | cons b k =>
        by_cases hpre : p <+: (b :: k)
        · obtain ⟨s, hs⟩ := hpre
          have hsl : s.length = m := by
            have := congrArg List.length hs
            simp only [List.length_append] at this
            omega
          obtain ⟨pr, c3, e3, hc3, hv, hx⟩ := ih (pfx ++ p) m s ch t L c2 hcc hwc hsl
            (by rw [hkey, ← hs]; simp) hc2 (by omega) (by omega)
          simp only [List.length_append] at e3
          have hpre : p <+: (b :: k) := ⟨s, hs⟩
          rw [if_pos hpre] at hstep
          refine ⟨(.edge (t.hash o) p, (Tree.edge p t).hash o) :: pr, c3, ?_, hc3, ?_, ?_⟩
          · simp only [proofLoop, bind, Except.bind, e1, hstep, e2, e3, pure, Except.pure]
          · simp only [List.map_cons, verify, PNode.hash, Tree.hash, FeltOps.edgeHash, true_and, Tree.get, hpre,
              if_true]
            rw [if_pos ⟨hp, by omega⟩, ← hs, List.drop_left]
            exact hv
          · intro x hx'
            rcases List.mem_cons.1 hx' with rfl | hx'
            · rfl
            · exact hx x hx'
        · rw [if_neg hpre] at hstep
          refine ⟨[(.edge (t.hash o) p, (Tree.edge p t).hash o)], c2, ?_, hc2, ?_, ?_⟩
          · simp only [proofLoop, bind, Except.bind, e1, hstep, e2, pure, Except.pure]
          · simp only [List.map_cons, List.map_nil, verify, PNode.hash, Tree.hash, FeltOps.edgeHash, true_and,
              Tree.get, hpre, if_false, List.isEmpty_nil, if_true]
            rw [if_pos ⟨hp, by omega⟩]
          · intro x hx'
            simp at hx'
            subst hx'
            rfl
    | @leafEdge _ _ p v g hh h1 =>
      obtain ⟨m, rfl, hp, hce, hwc⟩ := hw
      obtain ⟨rfl, _⟩ := hwc
      have hpos := List.length_pos_iff.2 hp
      obtain ⟨c1, e1, hc1⟩ := Caches.node_ok hc g
      obtain ⟨c2, e2, hc2⟩ := Caches.hash_ok hc1 hhash
      have htake : key.take pfx.length = pfx := by rw [hkey]; simp
      have hstep : proofStep S key pfx.length (.leafEdge p) = .ok (.edge v p, none, pfx.length) := by
        have : pfx.length ≤ key.length := by rw [hkey]; simp
        simp [proofStep, this, htake, needLeaf, h1, bind, Except.bind, pure, Except.pure]
      refine ⟨[(.edge v p, (Tree.edge p (Tree.leaf v)).hash o)], c2, ?_, hc2, ?_, ?_⟩
      · simp only [proofLoop, bind, Except.bind, e1, hstep, e2, pure, Except.pure]
      · cases k with
        | nil => simp at hk; omega
        | cons b k =>
          simp only [List.map_cons, List.map_nil, verify, PNode.hash, Tree.hash, FeltOps.edgeHash, true_and,
            Tree.get, List.isEmpty_nil, if_true]
          rw [if_pos ⟨hp, by omega⟩]
          by_cases hpre : p <+: (b :: k)
          · obtain ⟨s, hs⟩ := hpre
            have hsl : s.length = 0 := by
              have := congrArg List.length hs
              simp only [List.length_append] at this
              omega
            have : s = [] := List.length_eq_zero_iff.1 hsl
            subst this
            simp only [List.append_nil] at hs
            simp [← hs, verify, Tree.get]
          · simp [hpre]
      · intro x hx'
        simp at hx'
        subst hx'
        rfl

theorem proofKeys_ok {H : Nat} (hH : H < 256) {i t L} (hs : SRep o S S.leaf [] i t L) (hw : t.Wf o H) :
    ∀ (keys : List (List Bool)) (c : Caches F), (∀ k ∈ keys, k.length = H) → CachesOk S c →
    ∃ ps, proofKeys S H i keys c = .ok ps ∧ ps.length = keys.length ∧
      ∀ (j : Nat) k p, keys[j]? = some k → ps[j]? = some p →
        verify o (t.hash o) k (p.map (·.1)) = some (t.get k) ∧ ∀ x ∈ p, x.2 = x.1.hash o := by
  intro keys
  induction keys with
  | nil => intro c _ _; exact ⟨[], rfl, rfl, by simp⟩
  | cons k ks ih =>
    intro c hk hc
    obtain ⟨p, c1, e1, hc1, hv, hx⟩ := proofLoop_ok (key := k) (H + 1) [] H k i t L c hs hw
      (hk k List.mem_cons_self) rfl hc hH (by omega)
    obtain ⟨ps, e2, hlen, hps⟩ := ih c1 (fun k' h => hk k' (List.mem_cons_of_mem _ h)) hc1
    simp only [List.length_nil] at e1
    refine ⟨p :: ps, ?_, by simp [hlen], ?_⟩
    · simp only [proofKeys, bind, Except.bind, e1, e2, pure, Except.pure]
    · intro j k' p' hk' hp'
      cases j with
      | zero =>
        simp only [List.getElem?_cons_zero, Option.some.injEq] at hk' hp'
        subst hk' hp'
        exact ⟨hv, hx⟩
      | succ j =>
        simp only [List.getElem?_cons_succ] at hk' hp'
        exact hps j k' p' hk' hp'

/-- Two accepted proofs for the same root and key agree or exhibit a collision. -/
theorem verify_unique (p : List (PNode F)) : ∀ (q : List (PNode F)) (h : F) (k : List Bool) a b,
    verify o h k p = some a → verify o h k q = some b → a = b ∨ Collision o p q := by
  induction p with
  | nil =>
    intro q h k a b ha hb
    cases k with
    | cons => simp [verify] at ha
    | nil =>
      cases q with
      | nil => rw [ha] at hb; simp at hb; exact .inl hb
      | cons => simp [verify] at hb
  | cons x p ih =>
    intro q h k a b ha hb
    cases k with
    | nil => simp [verify] at ha
    | cons d k =>
      cases q with
      | nil => simp [verify] at hb
      | cons y q =>
        have hxh : x.hash o = h := by
          cases x <;> simp only [verify] at ha <;> split at ha <;> simp_all
        have hyh : y.hash o = h := by
          cases y <;> simp only [verify] at hb <;> split at hb <;> simp_all
        by_cases hxy : x = y
        · subst hxy
          have lift : (a = b ∨ Collision o p q) → (a = b ∨ Collision o (x :: p) (x :: q)) := by
            rintro (h | ⟨u, hu, w, hw, h1, h2⟩)
            · exact .inl h
            · exact .inr ⟨u, List.mem_cons_of_mem _ hu, w, List.mem_cons_of_mem _ hw, h1, h2⟩
          cases x with
          | binary l r =>
            simp only [verify] at ha hb
            rw [if_pos hxh] at ha hb
            exact lift (ih q _ _ a b ha hb)
          | edge c pa =>
            simp only [verify] at ha hb
            split at ha
            · rename_i hcond
              rw [if_pos hcond] at hb
              split at ha
              · rename_i hpre
                rw [if_pos hpre] at hb
                exact lift (ih q _ _ a b ha hb)
              · rename_i hpre
                rw [if_neg hpre] at hb
                left
                split at ha <;> split at hb <;> simp_all
            · simp at ha
        · exact .inr ⟨x, List.mem_cons_self, y, List.mem_cons_self, hxy, by rw [hxh, hyh]⟩

end Verif.Trie
