import Verif.Commit.Lemmas
import Verif.Commit.SpecProof
import Verif.Trie.ProofLemmas
/-!
# Lemmas for the storage proofs
-/
namespace Verif.Commit
open Verif.Trie

variable {F : Type} [DecidableEq F] {o : Ops F} {H : Nat} {isSys : Key → Bool}

theorem nodup_eraseDups {α : Type} [BEq α] [LawfulBEq α] (n : Nat) : ∀ l : List α, l.length ≤ n → l.eraseDups.Nodup := by
  induction n with
  | zero =>
    intro l h
    have : l = [] := List.length_eq_zero_iff.1 (by omega)
    subst this
    simp
  | succ n ih =>
    intro l h
    cases l with
    | nil => simp
    | cons a l =>
      rw [List.eraseDups_cons, List.nodup_cons]
      constructor
      · intro hm
        rw [List.mem_eraseDups, List.mem_filter] at hm
        simp at hm
      · apply ih
        have := List.length_filter_le (fun b => !b == a) l
        simp only [List.length_cons] at h
        omega

theorem verify_leads {o : FeltOps F} {ns : List (PNode F)} (p : List (PNode F)) : ∀ (h : F) (k : List Bool) (x : Option F),
    verify o h k p = some x → (∀ n ∈ p, n ∈ ns) → Leads o ns h k x := by
  induction p with
  | nil =>
    intro h k x hv _
    cases k with
    | nil => simp only [verify, Option.some.injEq] at hv; subst hv; exact .leaf h
    | cons b k => simp [verify] at hv
  | cons n p ih =>
    intro h k x hv hn
    have hn' : ∀ m ∈ p, m ∈ ns := fun m hm => hn m (List.mem_cons_of_mem _ hm)
    cases k with
    | nil => simp [verify] at hv
    | cons b k =>
      cases n with
      | binary l r =>
        simp only [verify] at hv
        split at hv
        · rename_i hh
          exact .binary (hn _ List.mem_cons_self) hh (ih _ _ _ hv hn')
        · cases hv
      | edge c q =>
        simp only [verify] at hv
        split at hv
        · rename_i hh
          obtain ⟨h1, h2, h3⟩ := hh
          split at hv
          · rename_i hq
            obtain ⟨t, ht⟩ := hq
            rw [← ht] at hv ⊢
            rw [List.drop_left] at hv
            exact .edge (hn _ List.mem_cons_self) h1 h2 (ih _ _ _ hv hn')
          · rename_i hq
            split at hv
            · cases hv
              exact .away (hn _ List.mem_cons_self) h1 h2 h3 hq
            · cases hv
        · cases hv

/-- Two sets of nodes that lead to different answers contain a collision. -/
theorem leads_unique {o : FeltOps F} {ns ms : List (PNode F)} {h : F} {k : Key} {x : Option F} (hx : Leads o ns h k x) :
    ∀ {y}, Leads o ms h k y → x = y ∨ Collision o ns ms := by
  induction hx with
  | leaf h =>
    intro y hy
    generalize hkk : ([] : Key) = kk at hy
    cases hy with
    | leaf => exact .inl rfl
    | binary => cases hkk
    | edge _ _ hp _ => simp at hkk; exact absurd hkk.1 hp
    | away _ _ hp hl _ => subst hkk; simp at hl; exact absurd hl hp
  | @binary h l r b k x hm hh _ ih =>
    intro y hy
    generalize hkk : b :: k = kk at hy
    cases hy with
    | leaf => cases hkk
    | @binary _ l' r' b' k' _ hm' hh' hy' =>
      cases hkk
      by_cases e : PNode.binary l r = PNode.binary l' r'
      · cases e; exact ih hy'
      · exact .inr ⟨_, hm, _, hm', e, hh.trans hh'.symm⟩
    | edge hm' hh' hp hy' => exact .inr ⟨_, hm, _, hm', by simp, hh.trans hh'.symm⟩
    | away hm' hh' hp _ _ => exact .inr ⟨_, hm, _, hm', by simp, hh.trans hh'.symm⟩
  | @edge h c p k x hm hh hp _ ih =>
    intro y hy
    generalize hkk : p ++ k = kk at hy
    cases hy with
    | leaf => simp at hkk; exact absurd hkk.1 hp
    | binary hm' hh' hy' => exact .inr ⟨_, hm, _, hm', by simp, hh.trans hh'.symm⟩
    | @edge _ c' p' k' _ hm' hh' hp' hy' =>
      by_cases e : PNode.edge c p = PNode.edge c' p'
      · cases e
        have := List.append_cancel_left hkk
        subst this
        exact ih hy'
      · exact .inr ⟨_, hm, _, hm', e, hh.trans hh'.symm⟩
    | @away _ c' p' k' hm' hh' hp' hl hq =>
      by_cases e : PNode.edge c p = PNode.edge c' p'
      · cases e
        exact absurd ⟨k, hkk⟩ hq
      · exact .inr ⟨_, hm, _, hm', e, hh.trans hh'.symm⟩
  | @away h c p k hm hh hp hl hq =>
    intro y hy
    cases hy with
    | leaf => simp at hl; exact absurd hl hp
    | binary hm' hh' hy' => exact .inr ⟨_, hm, _, hm', by simp, hh.trans hh'.symm⟩
    | @edge _ c' p' k' _ hm' hh' hp' hy' =>
      by_cases e : PNode.edge c p = PNode.edge c' p'
      · cases e
        exact absurd ⟨k', rfl⟩ hq
      · exact .inr ⟨_, hm, _, hm', e, hh.trans hh'.symm⟩
    | away => exact .inl rfl

/-- The nodes for a list of keys prove every one of them. -/
theorem proofNodes_ok {f : FeltOps F} (hH2 : H < 256) {T : Table F} {i : Nat} {c : Content F} {L : List Nat}
    (h : Stored f T H (some i) c L) (keys : List FKey) (hk : ∀ k ∈ keys, k.length = H + 1) :
    ∃ ns, proofNodes T c H i keys = .ok ns ∧ ns.Nodup ∧ (∀ x ∈ ns, x.2 = x.1.hash f) ∧
      ∀ k ∈ keys, Leads f (ns.map (·.1)) (specRoot f H c) (viewBits k) (c (viewBits k)) := by
  obtain ⟨t, hs, hw, hg⟩ := h
  have hS : (T.storage c).leaf = c := rfl
  obtain ⟨ps, e, hlen, hps⟩ := proofKeys_ok (S := T.storage c) hH2 (hS ▸ hs) hw (keys.map viewBits) ⟨[], []⟩
    (by
      intro k hk'
      obtain ⟨k0, hk0, rfl⟩ := List.mem_map.1 hk'
      simp [viewBits, hk k0 hk0])
    ⟨by simp, by simp⟩
  refine ⟨ps.flatten.eraseDups, ?_, nodup_eraseDups _ _ (Nat.le_refl _), ?_, ?_⟩
  · simp only [proofNodes, getProofs, e, liftP, Except.map]
  · intro x hx
    rw [List.mem_eraseDups, List.mem_flatten] at hx
    obtain ⟨p, hp, hx⟩ := hx
    obtain ⟨j, hj, hpj⟩ := List.getElem_of_mem hp
    have hj' : j < (keys.map viewBits).length := hlen ▸ hj
    exact (hps j _ p (List.getElem?_eq_getElem hj') (by rw [List.getElem?_eq_getElem hj, hpj])).2 x hx
  · intro k hk'
    obtain ⟨j, hj, hkj⟩ := List.getElem_of_mem hk'
    have hj' : j < ps.length := by rw [hlen, List.length_map]; exact hj
    have hv := (hps j (viewBits k) ps[j] (by simp [List.getElem?_eq_getElem hj, hkj]) (List.getElem?_eq_getElem hj')).1
    rw [Tree.hash_eq_specRoot hw hH2, hg] at hv
    refine verify_leads _ _ _ _ hv ?_
    intro n hn
    obtain ⟨x, hx, rfl⟩ := List.mem_map.1 hn
    exact List.mem_map_of_mem (List.mem_eraseDups.2 (List.mem_flatten.2 ⟨_, List.getElem_mem hj', hx⟩))

theorem Grows.refl (w : World F) : Grows w w := ⟨fun _ _ h => h, fun _ _ h => h, fun _ _ h => h⟩

theorem Grows.trans {a b c : World F} (h : Grows a b) (h' : Grows b c) : Grows a c :=
  ⟨fun i x e => h'.table i x (h.table i x e), fun i x e => h'.storageTrie i x (h.storageTrie i x e),
    fun i x e => h'.classTrie i x (h.classTrie i x e)⟩

/-- A stored trie stays stored when the table grows. -/
theorem stored_grows {f : FeltOps F} {T T' : Table F} {root : Option Nat} {c : Content F} {L : List Nat} (h : Stored f T H root c L)
    (hT : ∀ i x, T.row i = some x → T'.row i = some x) : Stored f T' H root c L :=
  h.mono fun j hj => by
    obtain ⟨x, hx⟩ := h.row j hj
    rw [hx, hT j x hx]

theorem chain_holds (hH : 0 < H) (hH2 : H < 256) (us : List (Update F)) :
    ∀ {w : World F} {S : St F}, Holds o H isSys w S → Possible o H isSys S us →
      ∃ ws, chain o H isSys w us = .ok ws ∧ ws.length = us.length ∧
        (∀ now, ws.getLast? = some now → Grows w now) ∧
        ∀ (b : Nat) v T now, ws[b]? = some v → (S.trace o us)[b]? = some T → ws.getLast? = some now → Holds o H isSys v T ∧ Grows v now := by
  induction us with
  | nil => intro w S h _; exact ⟨[], rfl, rfl, by simp, by simp⟩
  | cons u us ih =>
    intro w S h hp
    obtain ⟨w1, s, c, e1, h1, _, hg⟩ := update_grows hH hH2 h hp.1 hp.2.1
    obtain ⟨ws, e2, hl, hgw, hb⟩ := ih h1 hp.2.2
    have hlast : ∀ now, (w1 :: ws).getLast? = some now → Grows w1 now := by
      intro now hn
      cases hws : ws with
      | nil => rw [hws] at hn; simp at hn; subst hn; exact Grows.refl _
      | cons v vs =>
        rw [hws, List.getLast?_cons_cons, ← hws] at hn
        exact hgw now hn
    refine ⟨w1 :: ws, by simp only [chain, e1, e2, Except.bind, Except.map], by simp [hl], fun now hn => hg.trans (hlast now hn), ?_⟩
    intro b v T now hv hT hn
    cases b with
    | zero =>
      simp only [List.getElem?_cons_zero, Option.some.injEq, St.trace] at hv hT
      subst hv hT
      exact ⟨h1, hlast now hn⟩
    | succ b =>
      simp only [List.getElem?_cons_succ, St.trace] at hv hT
      refine hb b v T now hv hT ?_
      cases hws : ws with
      | nil => rw [hws] at hv; simp at hv
      | cons x xs => rw [hws, List.getLast?_cons_cons] at hn; exact hn

/-- System contracts have no class. -/
theorem sys_cls (us : List (Update F)) : ∀ {S : St F}, Possible o H isSys S us → (∀ a, isSys a = true → S.cls a = none) →
    ∀ (b : Nat) T, (S.trace o us)[b]? = some T → ∀ a, isSys a = true → T.cls a = none := by
  induction us with
  | nil => intro S _ _ b T h; simp [St.trace] at h
  | cons u us ih =>
    intro S hp hS b T hT
    have h1 : ∀ a, isSys a = true → (S.apply o u).cls a = none := by
      intro a ha
      have hd := (declare_storage (u.system.foldl (fun S p => S.contract o (p.1, { storage := p.2 })) (u.contracts.foldl (St.contract o) S))
        (u.sierra ++ u.migrated)).2.1
      have hS' : (S.apply o u).cls = (u.system.foldl (fun S p => S.contract o (p.1, { storage := p.2 })) (u.contracts.foldl (St.contract o) S)).cls := hd
      have hsys : ∀ (l : List (Key × List (Key × F))) (A : St F), (l.foldl (fun S p => S.contract o (p.1, { storage := p.2 })) A).cls a = A.cls a := by
        intro l
        induction l with
        | nil => intro A; rfl
        | cons p l ih => intro A; rw [List.foldl_cons, ih]; simp [St.contract]
      have hcon : ∀ (l : List (Key × ContractUpd F)) (A : St F), (∀ p ∈ l, isSys p.1 = false) → (l.foldl (St.contract o) A).cls a = A.cls a := by
        intro l
        induction l with
        | nil => intro A _; rfl
        | cons p l ih =>
          intro A hl
          rw [List.foldl_cons, ih _ fun q hq => hl q (List.mem_cons_of_mem _ hq)]
          have hp := hl p List.mem_cons_self
          have : a ≠ p.1 := by intro e; rw [e, hp] at ha; cases ha
          simp [St.contract, this]
      rw [hS', hsys, hcon _ _ hp.1.user]
      exact hS a ha
    cases b with
    | zero => simp only [St.trace, List.getElem?_cons_zero, Option.some.injEq] at hT; subst hT; exact h1
    | succ b => exact ih hp.2.2 h1 b T (by simpa [St.trace] using hT)

end Verif.Commit
