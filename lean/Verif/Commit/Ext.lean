import Verif.Commit.Lemmas
import Verif.Commit.SpecHist
/-! The effect of an update in terms of look-ups, and the merging of updates. -/
namespace Verif.Commit
open Verif.Trie

variable {F : Type} [DecidableEq F] {o : Ops F} {H : Nat} {isSys : Key → Bool}

theorem lookup_none_of {α : Type} {l : List (Key × α)} {a : Key} (h : a ∉ l.map (·.1)) : l.lookup a = none := by
  induction l with
  | nil => rfl
  | cons p l ih =>
    obtain ⟨k, v⟩ := p
    simp only [List.map_cons, List.mem_cons, not_or] at h
    rw [List.lookup_cons, beq_eq_false_iff_ne.2 h.1]
    exact ih h.2

theorem lookup_mem {α : Type} {l : List (Key × α)} {a : Key} {v : α} (h : l.lookup a = some v) : (a, v) ∈ l := by
  induction l with
  | nil => cases h
  | cons p l ih =>
    obtain ⟨k, x⟩ := p
    rw [List.lookup_cons] at h
    split at h
    · rename_i hb
      cases h
      rw [eq_of_beq hb]
      exact List.mem_cons_self
    · exact List.mem_cons_of_mem _ (ih h)

theorem lookup_of_mem {α : Type} {l : List (Key × α)} {a : Key} {v : α} (hn : (l.map (·.1)).Nodup) (h : (a, v) ∈ l) : l.lookup a = some v := by
  induction l with
  | nil => cases h
  | cons p l ih =>
    obtain ⟨k, x⟩ := p
    have hn' := List.nodup_cons.1 hn
    rw [List.lookup_cons]
    rcases List.mem_cons.1 h with h' | h'
    · cases h'
      simp
    · have : a ≠ k := by
        rintro rfl
        exact hn'.1 (List.mem_map.2 ⟨(a, v), h', rfl⟩)
      rw [beq_eq_false_iff_ne.2 this]
      exact ih hn'.2 h'

/-- The effect of writes in terms of look-ups. -/
theorem writes_lookup (f : FeltOps F) (l : List (Key × F)) (hn : (l.map (·.1)).Nodup) (c : Content F) (k : Key) :
    c.writes f l k = (match l.lookup k with
      | none => c k
      | some v => nonzero f v) := by
  induction l generalizing c with
  | nil => rfl
  | cons p l ih =>
    obtain ⟨a, v⟩ := p
    have hn' := List.nodup_cons.1 hn
    have e : c.writes f ((a, v) :: l) k = (c.write f a v).writes f l k := rfl
    rw [e, ih hn'.2, List.lookup_cons]
    by_cases hk : k = a
    · subst hk
      rw [lookup_none_of hn'.1]
      simp [Content.write, nonzero]
    · rw [beq_eq_false_iff_ne.2 hk]
      simp only
      cases l.lookup k with
      | none => simp [Content.write, hk]
      | some v => rfl

theorem writes_same (f : FeltOps F) {l l' : List (Key × F)} (h : SameMap l l') (c : Content F) : c.writes f l = c.writes f l' := by
  funext k
  rw [writes_lookup f l h.1, writes_lookup f l' h.2.1, h.2.2 k]

/-- The effect of contract updates in terms of look-ups. -/
theorem contracts_lookup (l : List (Key × ContractUpd F)) (hn : (l.map (·.1)).Nodup) (S : St F) (a : Key) :
    (l.foldl (St.contract o) S).storage a = (match l.lookup a with | none => S.storage a | some c => (S.storage a).writes o.ped c.storage) ∧
    (l.foldl (St.contract o) S).cls a = (match l.lookup a with | none => S.cls a | some c => c.cls.or (S.cls a)) ∧
    (l.foldl (St.contract o) S).nonce a = (match l.lookup a with | none => S.nonce a | some c => c.nonce.or (S.nonce a)) ∧
    (l.foldl (St.contract o) S).present a = ((l.lookup a).isSome || S.present a) := by
  induction l generalizing S with
  | nil => simp
  | cons p l ih =>
    obtain ⟨b, c⟩ := p
    have hn' := List.nodup_cons.1 hn
    obtain ⟨h1, h2, h3, h4⟩ := ih hn'.2 (S.contract o (b, c))
    rw [List.foldl_cons, h1, h2, h3, h4, List.lookup_cons]
    by_cases ha : a = b
    · subst ha
      rw [lookup_none_of hn'.1]
      simp [St.contract]
    · rw [beq_eq_false_iff_ne.2 ha]
      cases l.lookup a <;> simp [St.contract, ha]

theorem system_lookup (l : List (Key × List (Key × F))) (hn : (l.map (·.1)).Nodup) (S : St F) (a : Key) :
    (l.foldl (fun S p => S.contract o (p.1, { storage := p.2 })) S).storage a =
      (match l.lookup a with | none => S.storage a | some c => (S.storage a).writes o.ped c) ∧
    (l.foldl (fun S p => S.contract o (p.1, { storage := p.2 })) S).cls a = S.cls a ∧
    (l.foldl (fun S p => S.contract o (p.1, { storage := p.2 })) S).nonce a = S.nonce a ∧
    (l.foldl (fun S p => S.contract o (p.1, { storage := p.2 })) S).present a = ((l.lookup a).isSome || S.present a) := by
  induction l generalizing S with
  | nil => simp
  | cons p l ih =>
    obtain ⟨b, c⟩ := p
    have hn' := List.nodup_cons.1 hn
    obtain ⟨h1, h2, h3, h4⟩ := ih hn'.2 (S.contract o (b, { storage := c }))
    rw [List.foldl_cons, h1, h2, h3, h4, List.lookup_cons]
    by_cases ha : a = b
    · subst ha
      rw [lookup_none_of hn'.1]
      simp [St.contract]
    · rw [beq_eq_false_iff_ne.2 ha]
      cases l.lookup a <;> simp [St.contract, ha]

omit [DecidableEq F] in
theorem declare_lookup (l : List (Key × F)) (hn : (l.map (·.1)).Nodup) (S : St F) (c : Key) :
    (l.foldl St.declare S).casm c = (l.lookup c).or (S.casm c) := by
  induction l generalizing S with
  | nil => simp
  | cons p l ih =>
    obtain ⟨b, v⟩ := p
    have hn' := List.nodup_cons.1 hn
    rw [List.foldl_cons, ih hn'.2, List.lookup_cons]
    by_cases ha : c = b
    · subst ha
      rw [lookup_none_of hn'.1]
      simp [St.declare]
    · rw [beq_eq_false_iff_ne.2 ha]
      simp [St.declare, ha]

/-- The parts of the new state. -/
theorem apply_lookup (S : St F) {u : Update F} (h1 : (u.contracts.map (·.1)).Nodup) (h2 : (u.system.map (·.1)).Nodup) (a : Key) :
    (S.apply o u).storage a = (match u.system.lookup a with
      | none => (match u.contracts.lookup a with | none => S.storage a | some c => (S.storage a).writes o.ped c.storage)
      | some s => Content.writes o.ped (match u.contracts.lookup a with | none => S.storage a | some c => (S.storage a).writes o.ped c.storage) s) ∧
    (S.apply o u).cls a = (match u.contracts.lookup a with | none => S.cls a | some c => c.cls.or (S.cls a)) ∧
    (S.apply o u).nonce a = (match u.contracts.lookup a with | none => S.nonce a | some c => c.nonce.or (S.nonce a)) ∧
    (S.apply o u).present a = ((u.system.lookup a).isSome || ((u.contracts.lookup a).isSome || S.present a)) := by
  unfold St.apply
  obtain ⟨d1, d2, d3, d4⟩ := declare_storage (u.system.foldl (fun S p => S.contract o (p.1, { storage := p.2 }))
    (u.contracts.foldl (St.contract o) S)) (u.sierra ++ u.migrated)
  obtain ⟨s1, s2, s3, s4⟩ := system_lookup (o := o) u.system h2 (u.contracts.foldl (St.contract o) S) a
  obtain ⟨c1, c2, c3, c4⟩ := contracts_lookup (o := o) u.contracts h1 S a
  rw [d1, d2, d3, d4, s1, s2, s3, s4, c1, c2, c3, c4]
  exact ⟨rfl, rfl, rfl, rfl⟩

theorem apply_casm (S : St F) (u : Update F) :
    (S.apply o u).casm = ((u.sierra ++ u.migrated).foldl St.declare S).casm := by
  have gen : ∀ (l : List (Key × F)) (A B : St F), A.casm = B.casm → (l.foldl St.declare A).casm = (l.foldl St.declare B).casm := by
    intro l
    induction l with
    | nil => intro A B h; exact h
    | cons p l ih => intro A B h; exact ih _ _ (by simp only [St.declare, h])
  exact gen _ _ _ ((system_casm _ _).trans (contracts_casm _ _))

omit [DecidableEq F] in
theorem St.ext' {A B : St F} (h1 : A.storage = B.storage) (h2 : A.cls = B.cls) (h3 : A.nonce = B.nonce) (h4 : A.present = B.present)
    (h5 : A.casm = B.casm) : A = B := by
  cases A; cases B; cases h1; cases h2; cases h3; cases h4; cases h5; rfl

/-- Updates with the same changes lead to the same state. -/
theorem apply_same (S : St F) {u u' : Update F} (hu : u.Ok H isSys) (hu' : u'.Ok H isSys) (h : u.Same u') : S.apply o u = S.apply o u' := by
  have key := fun a => apply_lookup (o := o) S hu.contracts hu.system a
  have key' := fun a => apply_lookup (o := o) S hu'.contracts hu'.system a
  apply St.ext'
  · funext a
    rw [(key a).1, (key' a).1]
    have hc : (match u.contracts.lookup a with | none => S.storage a | some c => (S.storage a).writes o.ped c.storage) =
        (match u'.contracts.lookup a with | none => S.storage a | some c => (S.storage a).writes o.ped c.storage) := by
      rcases h.contracts a with ⟨e, e'⟩ | ⟨c, c', e, e', _, _, hs⟩
      · rw [e, e']
      · rw [e, e']; exact writes_same _ hs _
    rw [hc]
    rcases h.system a with ⟨e, e'⟩ | ⟨c, c', e, e', hs⟩
    · rw [e, e']
    · rw [e, e']; exact writes_same _ hs _
  · funext a
    rw [(key a).2.1, (key' a).2.1]
    rcases h.contracts a with ⟨e, e'⟩ | ⟨c, c', e, e', hc, _, _⟩
    · rw [e, e']
    · rw [e, e']; simp only [hc]
  · funext a
    rw [(key a).2.2.1, (key' a).2.2.1]
    rcases h.contracts a with ⟨e, e'⟩ | ⟨c, c', e, e', _, hc, _⟩
    · rw [e, e']
    · rw [e, e']; simp only [hc]
  · funext a
    rw [(key a).2.2.2, (key' a).2.2.2]
    rcases h.contracts a with ⟨e, e'⟩ | ⟨c, c', e, e', _, _, _⟩ <;>
    rcases h.system a with ⟨e2, e2'⟩ | ⟨c2, c2', e2, e2', _⟩ <;> simp [e, e', e2, e2']
  · funext c
    rw [apply_casm, apply_casm, List.foldl_append, List.foldl_append, declare_lookup _ h.migrated.1, declare_lookup _ h.migrated.2.1,
      declare_lookup _ h.sierra.1, declare_lookup _ h.sierra.2.1, h.sierra.2.2, h.migrated.2.2]

/-! ## Merging -/

theorem upsert_lookup {α : Type} (d : α) (l : List (Key × α)) (k : Key) (f : α → α) (a : Key) :
    (upsert d l k f).lookup a = if a = k then some (f ((l.lookup k).getD d)) else l.lookup a := by
  induction l with
  | nil =>
    simp only [upsert, List.lookup_cons, List.lookup_nil, Option.getD_none]
    by_cases h : a = k
    · simp [h]
    · rw [beq_eq_false_iff_ne.2 h]; simp [h]
  | cons p l ih =>
    obtain ⟨b, v⟩ := p
    unfold upsert
    by_cases hb : b = k
    · subst hb
      simp only [if_true, List.lookup_cons]
      by_cases h : a = b
      · simp [h]
      · rw [beq_eq_false_iff_ne.2 h]; simp [h]
    · simp only [hb, if_false]
      rw [List.lookup_cons, ih, List.lookup_cons, List.lookup_cons]
      have hkb : (k == b) = false := beq_eq_false_iff_ne.2 (Ne.symm hb)
      rw [hkb]
      by_cases h : a = b
      · subst h
        simp [hb]
      · rw [beq_eq_false_iff_ne.2 h]

theorem upsert_keys {α : Type} (d : α) (l : List (Key × α)) (k : Key) (f : α → α) :
    (upsert d l k f).map (·.1) = if k ∈ l.map (·.1) then l.map (·.1) else l.map (·.1) ++ [k] := by
  induction l with
  | nil => simp [upsert]
  | cons p l ih =>
    unfold upsert
    by_cases hb : p.1 = k
    · simp [hb]
    · rw [if_neg hb, List.map_cons, ih, List.map_cons]
      by_cases h : k ∈ l.map (·.1)
      · rw [if_pos h, if_pos (List.mem_cons_of_mem _ h)]
      · rw [if_neg h, if_neg (by simp only [List.mem_cons, not_or]; exact ⟨Ne.symm hb, h⟩)]; rfl

theorem upsert_nodup {α : Type} (d : α) (l : List (Key × α)) (k : Key) (f : α → α) (h : (l.map (·.1)).Nodup) :
    ((upsert d l k f).map (·.1)).Nodup := by
  rw [upsert_keys]
  split
  · exact h
  · rename_i hk
    rw [List.nodup_append]
    exact ⟨h, by simp, by
      intro x hx y hy
      simp only [List.mem_singleton] at hy
      subst hy
      rintro rfl
      exact hk hx⟩

/-- A fold of `upsert`s. -/
theorem upserts_lookup {α β : Type} (d : α) (g : α → β → α) (xs : List (Key × β)) (hn : (xs.map (·.1)).Nodup) (l : List (Key × α)) (a : Key) :
    (xs.foldl (fun l p => upsert d l p.1 fun e => g e p.2) l).lookup a =
      (match xs.lookup a with
        | none => l.lookup a
        | some c => some (g ((l.lookup a).getD d) c)) := by
  induction xs generalizing l with
  | nil => rfl
  | cons p xs ih =>
    obtain ⟨b, c⟩ := p
    have hn' := List.nodup_cons.1 hn
    rw [List.foldl_cons, ih hn'.2, List.lookup_cons, upsert_lookup]
    by_cases h : a = b
    · subst h
      rw [lookup_none_of hn'.1]
      simp
    · rw [beq_eq_false_iff_ne.2 h]
      simp [h]

theorem upserts_nodup {α β : Type} (d : α) (g : α → β → α) (xs : List (Key × β)) (l : List (Key × α)) (hl : (l.map (·.1)).Nodup) :
    ((xs.foldl (fun l p => upsert d l p.1 fun e => g e p.2) l).map (·.1)).Nodup := by
  induction xs generalizing l with
  | nil => exact hl
  | cons p xs ih => exact ih _ (upsert_nodup _ _ _ _ hl)

omit [DecidableEq F] in
theorem insert_lookup (l : List (Key × F)) (p : Key × F) (a : Key) : (mapInsert l p).lookup a = if a = p.1 then some p.2 else l.lookup a := by
  unfold mapInsert
  rw [upsert_lookup]

omit [DecidableEq F] in
theorem inserts_lookup (xs : List (Key × F)) (hn : (xs.map (·.1)).Nodup) (l : List (Key × F)) (a : Key) :
    (xs.foldl mapInsert l).lookup a = (xs.lookup a).or (l.lookup a) := by
  induction xs generalizing l with
  | nil => simp
  | cons p xs ih =>
    obtain ⟨b, c⟩ := p
    have hn' := List.nodup_cons.1 hn
    rw [List.foldl_cons, ih hn'.2, List.lookup_cons, insert_lookup]
    by_cases h : a = b
    · subst h
      rw [lookup_none_of hn'.1]
      simp
    · rw [beq_eq_false_iff_ne.2 h]
      simp [h]

omit [DecidableEq F] in
theorem inserts_nodup (xs l : List (Key × F)) (hl : (l.map (·.1)).Nodup) : ((xs.foldl mapInsert l).map (·.1)).Nodup := by
  induction xs generalizing l with
  | nil => exact hl
  | cons p xs ih => exact ih _ (upsert_nodup _ _ _ _ hl)

omit [DecidableEq F] in
/-- What merging does to the look-ups of the contracts. -/
theorem merge_contracts (m x : Update F) (hx : (x.contracts.map (·.1)).Nodup) (a : Key) :
    (mergeOne m x).contracts.lookup a = (match x.contracts.lookup a with
      | none => m.contracts.lookup a
      | some c => some { storage := ((m.contracts.lookup a).getD {}).storage ++ c.storage,
                         nonce := c.nonce.or ((m.contracts.lookup a).getD {}).nonce,
                         cls := c.cls.or ((m.contracts.lookup a).getD {}).cls }) :=
  Eq.trans (upserts_lookup ({} : ContractUpd F) (fun e (c : ContractUpd F) => { storage := e.storage ++ c.storage, nonce := c.nonce.or e.nonce, cls := c.cls.or e.cls })
    x.contracts hx m.contracts a) (by cases x.contracts.lookup a <;> rfl)

omit [DecidableEq F] in
theorem merge_system (m x : Update F) (hx : (x.system.map (·.1)).Nodup) (a : Key) :
    (mergeOne m x).system.lookup a = (match x.system.lookup a with
      | none => m.system.lookup a
      | some c => some ((m.system.lookup a).getD [] ++ c)) :=
  Eq.trans (upserts_lookup ([] : List (Key × F)) (fun e c => e ++ c) x.system hx m.system a) (by cases x.system.lookup a <;> rfl)

omit [DecidableEq F] in
theorem mergeOne_ok {m x : Update F} (hm : m.Ok H isSys) (hx : x.Ok H isSys) (hmg : m.migrated = []) : (mergeOne m x).Ok H isSys := by
  have hnc : ((mergeOne m x).contracts.map (·.1)).Nodup := upserts_nodup ({} : ContractUpd F)
    (fun e (c : ContractUpd F) => { storage := e.storage ++ c.storage, nonce := c.nonce.or e.nonce, cls := c.cls.or e.cls }) x.contracts m.contracts hm.contracts
  have hns : ((mergeOne m x).system.map (·.1)).Nodup := upserts_nodup [] (fun e c => e ++ c) x.system m.system hm.system
  have hc : ∀ p ∈ (mergeOne m x).contracts, isSys p.1 = false ∧ p.1.length = H ∧ ∀ q ∈ p.2.storage, q.1.length = H := by
    intro p hp
    have hl := lookup_of_mem hnc (a := p.1) (v := p.2) hp
    rw [merge_contracts m x hx.contracts] at hl
    cases e : x.contracts.lookup p.1 with
    | none =>
      rw [e] at hl
      have := lookup_mem hl
      exact ⟨hm.user _ this, hm.addr _ this, hm.keys _ this⟩
    | some c =>
      rw [e] at hl
      have hxm := lookup_mem e
      refine ⟨hx.user (p.1, c) hxm, hx.addr (p.1, c) hxm, ?_⟩
      simp only [Option.some.injEq] at hl
      rw [← hl]
      intro q hq
      rcases List.mem_append.1 hq with hq | hq
      · cases e2 : m.contracts.lookup p.1 with
        | none => rw [e2] at hq; cases hq
        | some c2 => rw [e2] at hq; exact hm.keys _ (lookup_mem e2) q hq
      · exact hx.keys _ hxm q hq
  have hs : ∀ p ∈ (mergeOne m x).system, isSys p.1 = true ∧ p.1.length = H ∧ ∀ q ∈ p.2, q.1.length = H := by
    intro p hp
    have hl := lookup_of_mem hns (a := p.1) (v := p.2) hp
    rw [merge_system m x hx.system] at hl
    cases e : x.system.lookup p.1 with
    | none =>
      rw [e] at hl
      have := lookup_mem hl
      exact ⟨hm.sys _ this, hm.sysAddr _ this, hm.sysKeys _ this⟩
    | some c =>
      rw [e] at hl
      have hxm := lookup_mem e
      refine ⟨hx.sys (p.1, c) hxm, hx.sysAddr (p.1, c) hxm, ?_⟩
      simp only [Option.some.injEq] at hl
      rw [← hl]
      intro q hq
      rcases List.mem_append.1 hq with hq | hq
      · cases e2 : m.system.lookup p.1 with
        | none => rw [e2] at hq; cases hq
        | some c2 => rw [e2] at hq; exact hm.sysKeys _ (lookup_mem e2) q hq
      · exact hx.sysKeys _ hxm q hq
  have hd : ∀ p ∈ (mergeOne m x).sierra, p.1.length = H := by
    have gen : ∀ (xs l : List (Key × F)), (∀ p ∈ xs, p.1.length = H) → (∀ p ∈ l, p.1.length = H) →
        ∀ p ∈ xs.foldl mapInsert l, p.1.length = H := by
      intro xs
      induction xs with
      | nil => intro l _ hl; exact hl
      | cons y xs ih =>
        intro l hxs hl
        refine ih _ (fun p hp => hxs p (List.mem_cons_of_mem _ hp)) ?_
        intro p hp
        have hk : p.1 ∈ (mapInsert l y).map (·.1) := List.mem_map_of_mem hp
        unfold mapInsert at hk
        rw [upsert_keys] at hk
        have : p.1 ∈ l.map (·.1) ∨ p.1 = y.1 := by
          split at hk
          · exact .inl hk
          · rcases List.mem_append.1 hk with h | h
            · exact .inl h
            · exact .inr (List.mem_singleton.1 h)
        rcases this with h | h
        · obtain ⟨q, hq, e⟩ := List.mem_map.1 h
          rw [← e]; exact hl q hq
        · rw [h]; exact hxs y List.mem_cons_self
    exact gen x.sierra m.sierra (fun p hp => hx.classes p (List.mem_append_left _ hp)) (fun p hp => hm.classes p (List.mem_append_left _ hp))
  exact
    { contracts := hnc, system := hns, user := fun p hp => (hc p hp).1, sys := fun p hp => (hs p hp).1, addr := fun p hp => (hc p hp).2.1,
      sysAddr := fun p hp => (hs p hp).2.1, keys := fun p hp => (hc p hp).2.2, sysKeys := fun p hp => (hs p hp).2.2,
      classes := fun p hp => by
        have e : (mergeOne m x).migrated = [] := hmg
        rw [e, List.append_nil] at hp
        exact hd p hp }

theorem writes_app (f : FeltOps F) (c : Content F) (l l' : List (Key × F)) : (c.writes f l).writes f l' = c.writes f (l ++ l') :=
  (writes_append c f l l').symm

/-- The merged update has the effect of both. -/
theorem mergeOne_apply (S : St F) {m x : Update F} (hm : m.Ok H isSys) (hx : x.Ok H isSys) (hmg : m.migrated = []) (hxg : x.migrated = [])
    (hxs : (x.sierra.map (·.1)).Nodup) (hms : (m.sierra.map (·.1)).Nodup) :
    S.apply o (mergeOne m x) = (S.apply o m).apply o x := by
  have hk := mergeOne_ok hm hx hmg
  have key := fun a => apply_lookup (o := o) S hm.contracts hm.system a
  have key' := fun a => apply_lookup (o := o) (S.apply o m) hx.contracts hx.system a
  have keym := fun a => apply_lookup (o := o) S hk.contracts hk.system a
  have hsep : ∀ a, (m.contracts.lookup a = none ∧ x.contracts.lookup a = none) ∨ (m.system.lookup a = none ∧ x.system.lookup a = none) := by
    intro a
    cases hs : isSys a with
    | true =>
      left
      constructor
      · cases e : m.contracts.lookup a with
        | none => rfl
        | some c => have := hm.user _ (lookup_mem e); simp only [hs] at this; cases this
      · cases e : x.contracts.lookup a with
        | none => rfl
        | some c => have := hx.user _ (lookup_mem e); simp only [hs] at this; cases this
    | false =>
      right
      constructor
      · cases e : m.system.lookup a with
        | none => rfl
        | some c => have := hm.sys _ (lookup_mem e); simp only [hs] at this; cases this
      · cases e : x.system.lookup a with
        | none => rfl
        | some c => have := hx.sys _ (lookup_mem e); simp only [hs] at this; cases this
  apply St.ext'
  · funext a
    rw [(key' a).1, (keym a).1, (key a).1, merge_contracts m x hx.contracts, merge_system m x hx.system]
    rcases hsep a with ⟨e1, e2⟩ | ⟨e1, e2⟩
    · rw [e1, e2]
      cases m.system.lookup a <;> cases x.system.lookup a <;> simp [writes_app]
    · rw [e1, e2]
      cases m.contracts.lookup a <;> cases x.contracts.lookup a <;> simp [writes_app]
  · funext a
    rw [(key' a).2.1, (keym a).2.1, (key a).2.1, merge_contracts m x hx.contracts]
    cases m.contracts.lookup a <;> cases x.contracts.lookup a <;> simp [Option.or_assoc]
  · funext a
    rw [(key' a).2.2.1, (keym a).2.2.1, (key a).2.2.1, merge_contracts m x hx.contracts]
    cases m.contracts.lookup a <;> cases x.contracts.lookup a <;> simp [Option.or_assoc]
  · funext a
    rw [(key' a).2.2.2, (keym a).2.2.2, (key a).2.2.2, merge_contracts m x hx.contracts, merge_system m x hx.system]
    cases m.contracts.lookup a <;> cases x.contracts.lookup a <;> cases m.system.lookup a <;> cases x.system.lookup a <;> simp
  · funext c
    have e : (mergeOne m x).migrated = [] := hmg
    have hn : ((mergeOne m x).sierra.map (·.1)).Nodup := inserts_nodup x.sierra m.sierra hms
    rw [apply_casm, apply_casm, e, hxg, List.append_nil, List.append_nil, declare_lookup _ hn, declare_lookup _ hxs, apply_casm, hmg,
      List.append_nil, declare_lookup _ hms]
    have : (mergeOne m x).sierra.lookup c = _ := inserts_lookup x.sierra hxs m.sierra c
    rw [this, Option.or_assoc]

/-- All updates of a batch. -/
theorem merge_apply (us : List (Update F)) (hu : ∀ u ∈ us, u.Ok H isSys ∧ u.migrated = [] ∧ (u.sierra.map (·.1)).Nodup) :
    ∀ (m : Update F), m.Ok H isSys → m.migrated = [] → (m.sierra.map (·.1)).Nodup →
      (us.foldl mergeOne m).Ok H isSys ∧ (us.foldl mergeOne m).migrated = [] ∧
      ∀ S : St F, S.apply o (us.foldl mergeOne m) = us.foldl (St.apply o) (S.apply o m) := by
  induction us with
  | nil => intro m h1 h2 _; exact ⟨h1, h2, fun _ => rfl⟩
  | cons u us ih =>
    intro m h1 h2 h3
    obtain ⟨a1, a2, a3⟩ := hu u List.mem_cons_self
    obtain ⟨b1, b2, b3⟩ := ih (fun v hv => hu v (List.mem_cons_of_mem _ hv)) (mergeOne m u) (mergeOne_ok h1 a1 h2) h2
      (inserts_nodup u.sierra m.sierra h3)
    refine ⟨b1, b2, fun S => ?_⟩
    rw [List.foldl_cons, b3, mergeOne_apply S h1 a1 h2 a2 a3 h3, List.foldl_cons]

/-- The merged update has all classes if each single one has. -/
theorem merge_classes (us : List (Update F)) (S0 : St F) :
    ∀ (m : Update F), m.Ok H isSys → m.migrated = [] → (m.sierra.map (·.1)).Nodup →
      (∀ u ∈ us, u.Ok H isSys ∧ u.migrated = [] ∧ (u.sierra.map (·.1)).Nodup) →
      m.Classes S0 → Possible o H isSys (S0.apply o m) us → (us.foldl mergeOne m).Classes S0 := by
  induction us with
  | nil => intro m _ _ _ _ h _; exact h
  | cons u us ih =>
    intro m h1 h2 h3 hu hm hp
    obtain ⟨a1, a2, a3⟩ := hu u List.mem_cons_self
    refine ih (mergeOne m u) (mergeOne_ok h1 a1 h2) h2 (inserts_nodup u.sierra m.sierra h3) (fun v hv => hu v (List.mem_cons_of_mem _ hv)) ?_ ?_
    · intro p hp' hcl hS
      have hl := lookup_of_mem (mergeOne_ok h1 a1 h2).contracts (a := p.1) (v := p.2) hp'
      rw [merge_contracts m u a1.contracts] at hl
      cases e : u.contracts.lookup p.1 with
      | none =>
        rw [e] at hl
        exact hm _ (lookup_mem hl) hcl hS
      | some c =>
        rw [e] at hl
        simp only [Option.some.injEq] at hl
        rw [← hl] at hcl
        simp only [Option.or_eq_none_iff] at hcl
        have hc := hp.2.1 _ (lookup_mem e) hcl.1
        rw [(apply_lookup (o := o) S0 h1.contracts h1.system p.1).2.1] at hc
        cases e2 : m.contracts.lookup p.1 with
        | none => rw [e2] at hc; exact hc hS
        | some c2 =>
          rw [e2] at hc hcl
          simp only [Option.getD_some] at hcl
          simp only [hcl.2, Option.none_or] at hc
          exact hc hS
    · rw [mergeOne_apply S0 h1 a1 h2 a2 a3 h3]
      exact hp.2.2

end Verif.Commit
