import Verif.Commit.Spec
import Verif.Trie.HistLemmas
/-! Lemmas for the state commitment. -/
namespace Verif.Commit
open Verif.Trie

variable {F : Type} [DecidableEq F] {o : Ops F} {H : Nat} {isSys : Key → Bool}

/-- The contract tries hold the storage. -/
def Tries (o : Ops F) (H : Nat) (w : World F) (storage : Key → Content F) : Prop :=
  ∀ a, ∃ L, Stored o.ped w.table H (w.roots a) (storage a) L ∧ L.Nodup

/-- The database holds the state. -/
structure Holds (o : Ops F) (H : Nat) (isSys : Key → Bool) (w : World F) (S : St F) : Prop where
  tries : Tries o H w S.storage
  leaf : w.leaf = S.storage
  cls : w.cls = S.cls
  nonce : w.nonce = S.nonce
  storageTrie : DbOk o.ped H w.storageTrie (S.leaves o H isSys)
  classTrie : DbOk o.pos H w.classTrie (S.classLeaves o)

theorem init_holds : Holds o H isSys (World.init : World F) St.empty where
  tries := fun _ => ⟨[], ⟨rfl, rfl⟩, List.nodup_nil⟩
  leaf := rfl
  cls := rfl
  nonce := rfl
  storageTrie := DbOk.init
  classTrie := DbOk.init

omit [DecidableEq F] in
/-- The stored root hash is the commitment of the storage. -/
theorem contractRoot_eq (hH2 : H < 256) {w : World F} {storage : Key → Content F} (h : Tries o H w storage) (a : Key) :
    contractRoot o w a = specRoot o.ped H (storage a) := by
  obtain ⟨L, hst, _⟩ := h a
  unfold contractRoot
  cases hr : w.roots a with
  | none =>
    rw [hr] at hst
    rw [hst.2, specRoot_empty]
  | some i =>
    rw [hr] at hst
    obtain ⟨t, hs, hw, hg⟩ := hst
    have hh : (w.table.storage (storage a)).hash i = some (t.hash o.ped) := by cases hs <;> assumption
    simp only [Table.storage, Option.map_eq_some_iff] at hh
    obtain ⟨x, hx, hx2⟩ := hh
    simp only [hx]
    rw [hx2, ← hg, Tree.hash_eq_specRoot hw hH2]

/-- The state after the update of one contract, before the state tables are written. -/
def setStorage (o : Ops F) (storage : Key → Content F) (a : Key) (ups : List (Key × F)) : Key → Content F :=
  fun b => if b = a then (storage b).writes o.ped ups else storage b

/-- The result of a contract update that was computed on `wc` and is inserted into `w`, which has grown since. -/
theorem contract_ok (hH : 0 < H) (hH2 : H < 256) {wc w : World F} {storage storage' : Key → Content F} (hc : Tries o H wc storage)
    (hw : Tries o H w storage') (a : Key) (hrow : ∀ i x, wc.table.row i = some x → w.table.row i = some x)
    (hroot : w.roots a = wc.roots a) (hsame : storage' a = storage a) (hleaf : wc.leaf a = storage a) (ups : List (Key × F))
    (hk : ∀ q ∈ ups, q.1.length = H) (nonce cls : Option F)
    (hcls : isSys a = true ∨ cls ≠ none ∨ wc.cls a ≠ none) :
    ∃ r w', updateContractState o H isSys wc a ups nonce cls = .ok r ∧ r.addr = a ∧
      r.stateHash = contractStateHash o (if isSys a then o.ped.zero else (cls.or (wc.cls a)).getD o.ped.zero)
        (specRoot o.ped H ((storage a).writes o.ped ups)) ((nonce.or (wc.nonce a)).getD o.ped.zero) ∧
      insertResult o w r = .ok w' ∧ Tries o H w' (setStorage o storage' a ups) ∧
      (∀ i x, w.table.row i = some x → w'.table.row i = some x) ∧ (∀ b, b ≠ a → w'.roots b = w.roots b) ∧
      w'.leaf = w.leaf ∧ w'.cls = w.cls ∧ w'.nonce = w.nonce := by
  have hclass : newClass o isSys wc a cls = .ok (if isSys a then o.ped.zero else (cls.or (wc.cls a)).getD o.ped.zero) := by
    unfold newClass
    split
    · rfl
    · rename_i hs
      split
      · rfl
      · split
        · rename_i h; simp [h]
        · rename_i h; simp [hs, h] at hcls
  have hnonce : newNonce o wc a nonce = (nonce.or (wc.nonce a)).getD o.ped.zero := by
    unfold newNonce; cases nonce <;> rfl
  obtain ⟨L, hst, hnd⟩ := hc a
  by_cases hu : ups = []
  · subst hu
    refine ⟨⟨a, _, none⟩, w, ?_, rfl, rfl, rfl, ?_, fun i x h => h, fun b _ => rfl, rfl, rfl, rfl⟩
    · unfold updateContractState
      rw [hclass, hnonce]
      simp only [newRoot, ne_eq, not_true_eq_false, if_false, Content.writes, List.foldl_nil, contractRoot_eq hH2 hc a]
      rfl
    · intro b
      have : setStorage o storage' a [] b = storage' b := by
        unfold setStorage; split <;> rfl
      rw [this]
      exact hw b
  · obtain ⟨u, T', ru, L', ecu, hcom, ein, hst', hnd', hold, _⟩ := update_ok hH hH2 hst
      (T := w.table) (fun j hj => by
        obtain ⟨x, hx⟩ := hst.row j hj
        rw [hx, hrow j x hx]) hnd ups hk
    refine ⟨⟨a, _, some u⟩, { w with table := T', roots := fun b => if b = a then ru.apply (w.roots b) else w.roots b }, ?_, rfl, rfl, ?_,
      ?_, hold, fun b hb => by simp [hb], rfl, rfl, rfl⟩
    · unfold updateContractState
      rw [hclass, hnonce]
      simp only [newRoot, ne_eq, hu, not_false_eq_true, if_true, hleaf, ecu, liftT, Except.map, Except.bind, hcom]
      rfl
    · simp only [insertResult, ein, liftT, bind, Except.bind, pure, Except.pure]
    · intro b
      simp only
      by_cases hb : b = a
      · subst hb
        refine ⟨L', ?_, hnd'⟩
        simp only [setStorage, if_true, hroot, hsame]
        exact hst'
      · obtain ⟨Lb, hstb, hndb⟩ := hw b
        refine ⟨Lb, ?_, hndb⟩
        simp only [setStorage, hb, if_false]
        refine hstb.mono ?_
        intro j hj
        obtain ⟨x, hx⟩ := hstb.row j hj
        rw [hx, hold j x hx]

/-- A contract update changes one leaf. -/
theorem leaves_contract (S : St F) (p : Key × ContractUpd F) :
    (S.leaves o H isSys).write o.ped p.1 ((S.contract o p).hash o H isSys p.1) = (S.contract o p).leaves o H isSys := by
  funext a
  unfold Content.write St.leaves
  by_cases ha : a = p.1
  · subst ha
    simp [St.contract, nonzero]
  · have h1 : (S.contract o p).present a = S.present a := by simp [St.contract, ha]
    have h2 : (S.contract o p).hash o H isSys a = S.hash o H isSys a := by simp [St.contract, St.hash, ha]
    rw [if_neg ha, h1, h2]

/-- The parallel part and the insertion of its results. -/
theorem contracts_ok (hH : 0 < H) (hH2 : H < 256) {wc : World F} {S0 : St F} (hc : Tries o H wc S0.storage) (hleaf : wc.leaf = S0.storage)
    (hcls : wc.cls = S0.cls) (hnonce : wc.nonce = S0.nonce) (cs : List (Key × ContractUpd F)) :
    ∀ (w : World F) (S : St F), Tries o H w S.storage → (∀ i x, wc.table.row i = some x → w.table.row i = some x) →
      (∀ p ∈ cs, w.roots p.1 = wc.roots p.1 ∧ S.storage p.1 = S0.storage p.1 ∧ S.cls p.1 = S0.cls p.1 ∧ S.nonce p.1 = S0.nonce p.1) →
      (cs.map (·.1)).Nodup → (∀ p ∈ cs, isSys p.1 = false) → (∀ p ∈ cs, ∀ q ∈ p.2.storage, q.1.length = H) →
      (∀ p ∈ cs, p.2.cls = none → S0.cls p.1 ≠ none) →
      ∃ rs w', contractResults o H isSys wc cs = .ok rs ∧ insertResults o w rs = .ok w' ∧
        Tries o H w' (cs.foldl (St.contract o) S).storage ∧ (∀ i x, w.table.row i = some x → w'.table.row i = some x) ∧
        (∀ b, (∀ p ∈ cs, b ≠ p.1) → w'.roots b = w.roots b) ∧ w'.leaf = w.leaf ∧ w'.cls = w.cls ∧ w'.nonce = w.nonce ∧
        rs.map (·.addr) = cs.map (·.1) ∧
        (S.leaves o H isSys).writes o.ped (rs.map fun r => (r.addr, r.stateHash)) = (cs.foldl (St.contract o) S).leaves o H isSys := by
  induction cs with
  | nil =>
    intro w S hw hrow _ _ _ _ _
    exact ⟨[], w, rfl, rfl, hw, fun _ _ h => h, fun _ _ => rfl, rfl, rfl, rfl, rfl, rfl⟩
  | cons p cs ih =>
    intro w S hw hrow hag hnd hus hks hcl
    obtain ⟨a, u⟩ := p
    obtain ⟨hr, hs1, hs2, hs3⟩ := hag (a, u) List.mem_cons_self
    simp only at hr hs1 hs2 hs3
    have hua : isSys a = false := hus (a, u) List.mem_cons_self
    obtain ⟨r, w1, e1, ra, rh, e2, ht1, hrow1, hroots1, l1, c1, n1⟩ := contract_ok (isSys := isSys) hH hH2 hc hw a hrow hr hs1
      (by rw [hleaf]) u.storage (hks (a, u) List.mem_cons_self) u.nonce u.cls
      (by
        cases hu : u.cls with
        | some c => exact .inr (.inl nofun)
        | none => exact .inr (.inr (by rw [hcls]; exact hcl (a, u) List.mem_cons_self hu)))
    have hnd' := List.nodup_cons.1 hnd
    have hne : ∀ q ∈ cs, q.1 ≠ a := by
      intro q hq h
      exact hnd'.1 (List.mem_map.2 ⟨q, hq, h⟩)
    have hS1 : (S.contract o (a, u)).storage = setStorage o S.storage a u.storage := rfl
    obtain ⟨rs, w2, e3, e4, ht2, hrow2, hroots2, l2, c2, n2, hm, hwr⟩ := ih w1 (S.contract o (a, u)) (by rw [hS1]; exact ht1)
      (fun i x h => hrow1 i x (hrow i x h))
      (by
        intro q hq
        have hqa := hne q hq
        obtain ⟨h1, h2, h3, h4⟩ := hag q (List.mem_cons_of_mem _ hq)
        refine ⟨by rw [hroots1 _ hqa]; exact h1, ?_, ?_, ?_⟩ <;> simp [St.contract, hqa, h2, h3, h4])
      hnd'.2 (fun q hq => hus q (List.mem_cons_of_mem _ hq)) (fun q hq => hks q (List.mem_cons_of_mem _ hq))
      (fun q hq => hcl q (List.mem_cons_of_mem _ hq))
    refine ⟨r :: rs, w2, ?_, ?_, ht2, fun i x h => hrow2 i x (hrow1 i x h), ?_, l2.trans l1, c2.trans c1, n2.trans n1, ?_, ?_⟩
    · simp only [contractResults, e1, e3, bind, Except.bind, pure, Except.pure]
    · simp only [insertResults, e2, bind, Except.bind, e4]
    · intro b hb
      rw [hroots2 b (fun q hq => hb q (List.mem_cons_of_mem _ hq)), hroots1 b (hb (a, u) List.mem_cons_self)]
    · simp [ra, hm]
    · have hh : r.stateHash = (S.contract o (a, u)).hash o H isSys a := by
        rw [rh]
        simp [contractStateHash, St.hash, St.contract, hua, hs1, hs2, hs3, hcls, hnonce]
      rw [List.map_cons, Content.writes, List.foldl_cons]
      simp only [ra, hh]
      have hl := leaves_contract (o := o) (H := H) (isSys := isSys) S (a, u)
      simp only at hl
      rw [hl]
      exact hwr

/-- The system contracts. -/
theorem system_ok (hH : 0 < H) (hH2 : H < 256) {S0 : St F} (cs : List (Key × List (Key × F))) :
    ∀ (w : World F) (S : St F), Tries o H w S.storage → w.leaf = S0.storage → w.nonce = S0.nonce →
      (∀ p ∈ cs, S.storage p.1 = S0.storage p.1 ∧ S.nonce p.1 = S0.nonce p.1) →
      (cs.map (·.1)).Nodup → (∀ p ∈ cs, isSys p.1 = true) → (∀ p ∈ cs, ∀ q ∈ p.2, q.1.length = H) →
      ∃ w' ws, updateSystem o H isSys w cs = .ok (w', ws) ∧
        Tries o H w' (cs.foldl (fun S p => S.contract o (p.1, { storage := p.2 })) S).storage ∧
        w'.leaf = w.leaf ∧ w'.cls = w.cls ∧ w'.nonce = w.nonce ∧ ws.map (·.1) = cs.map (·.1) ∧
        (∀ i x, w.table.row i = some x → w'.table.row i = some x) ∧
        (S.leaves o H isSys).writes o.ped ws = (cs.foldl (fun S p => S.contract o (p.1, { storage := p.2 })) S).leaves o H isSys := by
  induction cs with
  | nil =>
    intro w S hw _ _ _ _ _ _
    exact ⟨w, [], rfl, hw, rfl, rfl, rfl, rfl, fun _ _ h => h, rfl⟩
  | cons p cs ih =>
    intro w S hw hleaf hnonce hag hnd hsy hks
    obtain ⟨a, ups⟩ := p
    obtain ⟨hs1, hs3⟩ := hag (a, ups) List.mem_cons_self
    simp only at hs1 hs3
    have hua : isSys a = true := hsy (a, ups) List.mem_cons_self
    obtain ⟨r, w1, e1, ra, rh, e2, ht1, hrow1, hroots1, l1, c1, n1⟩ := contract_ok (isSys := isSys) hH hH2 hw hw a (fun _ _ h => h) rfl rfl
      (by rw [hleaf, hs1]) ups (hks (a, ups) List.mem_cons_self) none none (.inl hua)
    have hnd' := List.nodup_cons.1 hnd
    have hne : ∀ q ∈ cs, q.1 ≠ a := by
      intro q hq h
      exact hnd'.1 (List.mem_map.2 ⟨q, hq, h⟩)
    have hS1 : (S.contract o (a, { storage := ups })).storage = setStorage o S.storage a ups := rfl
    obtain ⟨w2, ws, e3, ht2, l2, c2, n2, hm, hrow2, hwr⟩ := ih w1 (S.contract o (a, { storage := ups })) (by rw [hS1]; exact ht1)
      (l1.trans hleaf) (n1.trans hnonce)
      (by
        intro q hq
        have hqa := hne q hq
        obtain ⟨h2, h4⟩ := hag q (List.mem_cons_of_mem _ hq)
        constructor <;> simp [St.contract, hqa, h2, h4])
      hnd'.2 (fun q hq => hsy q (List.mem_cons_of_mem _ hq)) (fun q hq => hks q (List.mem_cons_of_mem _ hq))
    refine ⟨w2, (a, r.stateHash) :: ws, ?_, ht2, l2.trans l1, c2.trans c1, n2.trans n1, by simp [hm], fun i x h => hrow2 i x (hrow1 i x h), ?_⟩
    · simp only [updateSystem, e1, e2, e3, bind, Except.bind, pure, Except.pure]
    · have hh : r.stateHash = (S.contract o (a, { storage := ups })).hash o H isSys a := by
        rw [rh]
        simp [contractStateHash, St.hash, St.contract, hua, hs3, hnonce]
      rw [Content.writes, List.foldl_cons]
      simp only [hh]
      have hl := leaves_contract (o := o) (H := H) (isSys := isSys) S (a, { storage := ups })
      simp only at hl
      rw [hl]
      exact hwr

/-- The classes. -/
theorem classes_ok (S : St F) (l : List (Key × F)) :
    (S.classLeaves o).writes o.pos (l.map fun p => (p.1, o.classLeaf p.2)) = (l.foldl St.declare S).classLeaves o := by
  induction l generalizing S with
  | nil => rfl
  | cons p l ih =>
    rw [List.map_cons, Content.writes, List.foldl_cons, List.foldl_cons, ← ih]
    unfold Content.writes
    congr 1
    funext k
    unfold Content.write St.classLeaves St.declare
    by_cases hk : k = p.1
    · simp [hk, nonzero]
    · simp [hk]

omit [DecidableEq F] in
theorem declare_storage (S : St F) (l : List (Key × F)) : (l.foldl St.declare S).storage = S.storage ∧
    (l.foldl St.declare S).cls = S.cls ∧ (l.foldl St.declare S).nonce = S.nonce ∧ (l.foldl St.declare S).present = S.present := by
  induction l generalizing S with
  | nil => exact ⟨rfl, rfl, rfl, rfl⟩
  | cons p l ih => exact ih (S.declare p)

theorem contracts_casm (S : St F) (l : List (Key × ContractUpd F)) : (l.foldl (St.contract o) S).casm = S.casm := by
  induction l generalizing S with
  | nil => rfl
  | cons p l ih => exact ih _

theorem system_casm (S : St F) (l : List (Key × List (Key × F))) :
    (l.foldl (fun S p => S.contract o (p.1, { storage := p.2 })) S).casm = S.casm := by
  induction l generalizing S with
  | nil => rfl
  | cons p l ih => exact ih _

theorem contracts_other (S : St F) (l : List (Key × ContractUpd F)) (a : Key) (h : ∀ p ∈ l, a ≠ p.1) :
    (l.foldl (St.contract o) S).storage a = S.storage a ∧ (l.foldl (St.contract o) S).cls a = S.cls a ∧
    (l.foldl (St.contract o) S).nonce a = S.nonce a ∧ (l.foldl (St.contract o) S).present a = S.present a := by
  induction l generalizing S with
  | nil => exact ⟨rfl, rfl, rfl, rfl⟩
  | cons p l ih =>
    obtain ⟨h1, h2, h3, h4⟩ := ih (S.contract o p) (fun q hq => h q (List.mem_cons_of_mem _ hq))
    have hp := h p List.mem_cons_self
    rw [List.foldl_cons, h1, h2, h3, h4]
    simp [St.contract, hp]

/-- The state tables. -/
theorem insertContracts_ok (w : World F) (S : St F) (l : List (Key × ContractUpd F)) (h1 : w.leaf = S.storage) (h2 : w.cls = S.cls)
    (h3 : w.nonce = S.nonce) :
    let w' := l.foldl (insertContract o) w
    let S' := l.foldl (St.contract o) S
    w'.leaf = S'.storage ∧ w'.cls = S'.cls ∧ w'.nonce = S'.nonce ∧ w'.table = w.table ∧ w'.roots = w.roots ∧
      w'.storageTrie = w.storageTrie ∧ w'.classTrie = w.classTrie := by
  induction l generalizing w S with
  | nil => exact ⟨h1, h2, h3, rfl, rfl, rfl, rfl⟩
  | cons p l ih =>
    refine ih (insertContract o w p) (S.contract o p) ?_ ?_ ?_
    · simp only [insertContract, St.contract, h1]; rfl
    · simp only [insertContract, St.contract, h2]
    · simp only [insertContract, St.contract, h3]

theorem insertSystem_ok (w : World F) (S : St F) (l : List (Key × List (Key × F))) (h1 : w.leaf = S.storage) (h2 : w.cls = S.cls)
    (h3 : w.nonce = S.nonce) :
    let w' := l.foldl (insertSystem o) w
    let S' := l.foldl (fun S p => S.contract o (p.1, { storage := p.2 })) S
    w'.leaf = S'.storage ∧ w'.cls = S'.cls ∧ w'.nonce = S'.nonce ∧ w'.table = w.table ∧ w'.roots = w.roots ∧
      w'.storageTrie = w.storageTrie ∧ w'.classTrie = w.classTrie := by
  induction l generalizing w S with
  | nil => exact ⟨h1, h2, h3, rfl, rfl, rfl, rfl⟩
  | cons p l ih =>
    refine ih (insertSystem o w p) (S.contract o (p.1, { storage := p.2 })) ?_ ?_ ?_
    · simp only [insertSystem, St.contract, h1]; rfl
    · simp only [insertSystem, St.contract, h2]
      funext a; split <;> simp
    · simp only [insertSystem, St.contract, h3]
      funext a; split <;> simp

theorem writes_append (c : Content F) (f : FeltOps F) (l l' : List (Key × F)) : c.writes f (l ++ l') = (c.writes f l).writes f l' := by
  simp [Content.writes, List.foldl_append]

/-- Nothing is removed from the three node tables. -/
structure Grows (w w' : World F) : Prop where
  table : ∀ i x, w.table.row i = some x → w'.table.row i = some x
  storageTrie : ∀ i x, w.storageTrie.table.row i = some x → w'.storageTrie.table.row i = some x
  classTrie : ∀ i x, w.classTrie.table.row i = some x → w'.classTrie.table.row i = some x

/-- One block. -/
theorem update_grows (hH : 0 < H) (hH2 : H < 256) {w : World F} {S : St F} (h : Holds o H isSys w S) {u : Update F}
    (hu : u.Ok H isSys) (hc : u.Classes S) :
    ∃ w' s c, applyUpdate o H isSys w u = .ok (w', s, c) ∧ Holds o H isSys w' (S.apply o u) ∧
      (s, c) = (S.apply o u).commitments o H isSys ∧ Grows w w' := by
  obtain ⟨rs, w1, e1, e2, ht1, hrow1, hroots1, l1, c1, n1, hm1, hwr1⟩ := contracts_ok (isSys := isSys) hH hH2 h.tries h.leaf h.cls h.nonce
    u.contracts w S h.tries (fun _ _ h => h) (fun _ _ => ⟨rfl, rfl, rfl, rfl⟩) hu.contracts hu.user hu.keys hc
  have hsep : ∀ p ∈ u.system, ∀ q ∈ u.contracts, p.1 ≠ q.1 := by
    intro p hp q hq e
    have h1 := hu.sys p hp
    have h2 := hu.user q hq
    rw [e, h2] at h1
    cases h1
  obtain ⟨w2, ws, e3, ht2, l2, c2, n2, hm2, hrow2, hwr2⟩ := system_ok (isSys := isSys) (S0 := S) hH hH2 u.system w1
    (u.contracts.foldl (St.contract o) S) ht1 (l1.trans h.leaf) (n1.trans h.nonce)
    (by
      intro p hp
      obtain ⟨a1, _, a3, _⟩ := contracts_other (o := o) S u.contracts p.1 (hsep p hp)
      exact ⟨a1, a3⟩) hu.system hu.sys hu.sysKeys
  obtain ⟨st, sv, e4, hst, _, hsv, hsrow, _⟩ := block_ok hH hH2 h.storageTrie (rs.map (fun r => (r.addr, r.stateHash)) ++ ws) (by
    intro p hp
    rcases List.mem_append.1 hp with hp | hp
    · have h1 : p.1 ∈ rs.map (·.addr) := by
        obtain ⟨r, hr, rfl⟩ := List.mem_map.1 hp
        exact List.mem_map_of_mem hr
      rw [hm1] at h1
      obtain ⟨q, hq, e⟩ := List.mem_map.1 h1
      rw [← e]; exact hu.addr q hq
    · have h1 : p.1 ∈ ws.map (·.1) := List.mem_map_of_mem hp
      rw [hm2] at h1
      obtain ⟨q, hq, e⟩ := List.mem_map.1 h1
      rw [← e]; exact hu.sysAddr q hq)
  obtain ⟨ct, cv, e5, hct, _, hcv, hcrow, _⟩ := block_ok hH hH2 h.classTrie ((u.sierra ++ u.migrated).map fun p => (p.1, o.classLeaf p.2)) (by
    intro p hp
    obtain ⟨q, hq, rfl⟩ := List.mem_map.1 hp
    exact hu.classes q hq)
  rw [writes_append, hwr1, hwr2] at hst hsv
  rw [classes_ok] at hct hcv
  -- the states
  let S1 := u.contracts.foldl (St.contract o) S
  let S2 := u.system.foldl (fun S p => S.contract o (p.1, { storage := p.2 })) S1
  have hS : S.apply o u = (u.sierra ++ u.migrated).foldl St.declare S2 := rfl
  obtain ⟨d1, d2, d3, d4⟩ := declare_storage S2 (u.sierra ++ u.migrated)
  have hleaves : (S.apply o u).leaves o H isSys = S2.leaves o H isSys := by
    rw [hS]
    funext a
    simp only [St.leaves, St.hash, d1, d2, d3, d4]
  have hclasses : (S.apply o u).classLeaves o = ((u.sierra ++ u.migrated).foldl St.declare S).classLeaves o := by
    have : (S.apply o u).casm = ((u.sierra ++ u.migrated).foldl St.declare S).casm := by
      rw [hS]
      have hcasm : S2.casm = S.casm := (system_casm _ _).trans (contracts_casm _ _)
      have gen : ∀ (l : List (Key × F)) (A B : St F), A.casm = B.casm → (l.foldl St.declare A).casm = (l.foldl St.declare B).casm := by
        intro l
        induction l with
        | nil => intro A B h; exact h
        | cons p l ih => intro A B h; exact ih _ _ (by simp only [St.declare, h])
      exact gen _ _ _ hcasm
    funext c
    simp only [St.classLeaves, this]
  let w3 : World F := { w2 with storageTrie := st, classTrie := ct }
  obtain ⟨i1, i2, i3, i4, i5, i6, i7⟩ := insertContracts_ok (o := o) w3 S u.contracts (l2.trans (l1.trans h.leaf)) (c2.trans (c1.trans h.cls))
    (n2.trans (n1.trans h.nonce))
  obtain ⟨j1, j2, j3, j4, j5, j6, j7⟩ := insertSystem_ok (o := o) (u.contracts.foldl (insertContract o) w3) S1 u.system i1 i2 i3
  refine ⟨u.system.foldl (insertSystem o) (u.contracts.foldl (insertContract o) w3), sv.commitment, cv.commitment, ?_, ?_, ?_, ?_⟩
  rotate_left
  · refine ⟨?_, ?_, ?_, ?_, ?_, ?_⟩
    rotate_left
    · rw [hS, d1]; exact j1
    · rw [hS, d2]; exact j2
    · rw [hS, d3]; exact j3
    · rw [hleaves, j6, i6]; exact hst
    · rw [hclasses, j7, i7]; exact hct
    · intro a
      rw [j4, i4, j5, i5, hS, d1]
      exact ht2 a
  · unfold St.commitments
    rw [hsv, hcv, hleaves, hclasses]
  · refine ⟨?_, ?_, ?_⟩
    · intro i x hx
      rw [j4, i4]
      exact hrow2 i x (hrow1 i x hx)
    · intro i x hx
      rw [j6, i6]
      exact hsrow i x hx
    · intro i x hx
      rw [j7, i7]
      exact hcrow i x hx
  · simp only [applyUpdate, updateState, e1, e2, e3, e4, e5, liftT, bind, Except.bind, pure, Except.pure]
    rfl

/-- One block. -/
theorem update_holds (hH : 0 < H) (hH2 : H < 256) {w : World F} {S : St F} (h : Holds o H isSys w S) {u : Update F}
    (hu : u.Ok H isSys) (hc : u.Classes S) :
    ∃ w' s c, applyUpdate o H isSys w u = .ok (w', s, c) ∧ Holds o H isSys w' (S.apply o u) ∧
      (s, c) = (S.apply o u).commitments o H isSys := by
  obtain ⟨w', s, c, e, h1, h2, _⟩ := update_grows hH hH2 h hu hc
  exact ⟨w', s, c, e, h1, h2⟩

end Verif.Commit
