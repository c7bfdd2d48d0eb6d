import Verif.State.Props
/-
C16: the reverse updates computed for a range of blocks lead from the state at the head to the state at the target.
-/
namespace Verif.State
open Verif.Db

/-! ### association lists -/

theorem put_lookup {α : Type} (m : List (Nat × α)) (k x : Nat) (v : α) :
    (put m k v).lookup x = if x = k then some v else m.lookup x := by
  unfold put
  by_cases h : m.any (fun e => e.1 == k)
  · rw [if_pos h]
    have hk : k ∈ m.map (·.1) := by
      obtain ⟨e, he, h2⟩ := List.any_eq_true.1 h
      exact List.mem_map.2 ⟨e, he, by simpa using h2⟩
    clear h
    induction m with
    | nil => simp at hk
    | cons p ps ih =>
      obtain ⟨c, w⟩ := p
      rw [List.map_cons, List.lookup_cons, List.lookup_cons]
      by_cases e1 : c = k
      · subst e1
        simp only [ite_true]
        by_cases e2 : x = c
        · simp [e2]
        · have e3 : (x == c) = false := by simpa using e2
          rw [if_neg e2, e3]
          simp only
          by_cases h2 : c ∈ ps.map (·.1)
          · rw [ih h2, if_neg e2]
          · congr 1
            have : (ps.map fun e => if e.1 = c then (c, v) else e) = ps.map id := by
              apply List.map_congr_left
              intro e he
              rw [if_neg fun h => h2 (List.mem_map.2 ⟨e, he, h⟩)]
              rfl
            simpa using this
      · simp only [e1, ite_false]
        have hk2 : k ∈ ps.map (·.1) := by
          simp only [List.map_cons, List.mem_cons] at hk
          rcases hk with h | h
          · exact absurd h.symm e1
          · exact h
        by_cases e2 : x = k
        · have e3 : (x == c) = false := by simpa using fun h => e1 (h.symm.trans e2)
          rw [e3]; simp only; rw [ih hk2]
        · rw [ih hk2]
          simp only [e2, ite_false]
  · rw [if_neg h, List.lookup_append]
    have hk : m.lookup k = none := by
      apply lookup_eq_none
      intro p hp e
      exact h (List.any_eq_true.2 ⟨p, hp, by simpa using e⟩)
    by_cases e : x = k
    · subst e; simp [hk]
    · have e3 : (x == k) = false := by simpa using e
      rw [if_neg e]
      simp [List.lookup_cons, e3]

theorem alter_lookup {α : Type} (m : List (Nat × α)) (k x : Nat) (d : α) (f : α → α) :
    (alter m k d f).lookup x = if x = k then some (f ((m.lookup k).getD d)) else m.lookup x := by
  unfold alter
  rw [put_lookup]

/-! ### keys written in a range -/

theorem mem_updatedKeys {κ α : Type} [DecidableEq κ] {rows : List (Row κ α)} {hd to : Nat} {k : κ} :
    k ∈ updatedKeys rows hd to ↔ ∃ r ∈ rows, r.key = k ∧ to < r.block ∧ r.block ≤ hd := by
  unfold updatedKeys
  rw [List.mem_eraseDups, List.mem_map]
  constructor
  · rintro ⟨r, hr, e⟩
    simp at hr
    exact ⟨r, hr.1, e, hr.2⟩
  · rintro ⟨r, hr, e, h1, h2⟩
    exact ⟨r, by simp [hr, h1, h2], e⟩

/-- The value before the range, of the key that satisfies `p`. -/
theorem oldVal_eq {κ α : Type} [DecidableEq κ] {p : κ → Prop} [DecidablePred p] {rows : List (Row κ α)} {to : Nat} {k : κ}
    (hp : ∀ k', p k' ↔ k' = k) : oldVal rows to k = (latest (sel p rows) to).map (·.2) := by
  unfold oldVal
  have : (rows.filterMap fun r => if r.key = k then some (r.block, r.val) else none) = sel p rows := by
    show sel (fun x => x = k) rows = _
    apply sel_congr
    intro r _
    rw [hp]
  rw [this]

/-- Blocks above the pruning horizon have a row exactly if their update writes the key. -/
theorem Tab.row_iff {β α : Type} {f : β → Option α} {us : List β} {lo : Nat} {rows : List (Nat × α)}
    (h : Tab f us lo rows) {i : Nat} (hi : lo < i) : (∃ r ∈ rows, r.1 = i) ↔ us[i]?.bind f ≠ none := by
  constructor
  · rintro ⟨r, hr, rfl⟩
    rw [h.sound r hr]; simp
  · intro hne
    cases hc : us[i]?.bind f with
    | none => exact absurd hc hne
    | some v =>
      rcases h.complete i v hc with hm | ⟨j, w, h1, h2, _⟩
      · exact ⟨_, hm, rfl⟩
      · omega

/-- Without a row in the range the value does not change. -/
theorem Tab.unchanged {β α : Type} {f : β → Option α} {us : List β} {lo : Nat} {rows : List (Nat × α)}
    (h : Tab f us lo rows) {hd to : Nat} (hto : lo ≤ to) (hle : to ≤ hd)
    (hno : ¬ ∃ r ∈ rows, to < r.1 ∧ r.1 ≤ hd) : asOf f us hd = asOf f us to := by
  have hw : ∀ j, to < j → j ≤ hd → us[j]?.bind f = none := by
    intro j h1 h2
    apply Classical.byContradiction
    intro hne
    obtain ⟨r, hr, e⟩ := (h.row_iff (by omega)).2 hne
    exact hno ⟨r, hr, by omega, by omega⟩
  cases hc : asOf f us to with
  | none =>
    rw [asOf_eq_none] at hc ⊢
    intro j hj
    by_cases hj2 : j ≤ to
    · exact hc j hj2
    · exact hw j (by omega) hj
  | some v =>
    rw [asOf_eq_some] at hc ⊢
    obtain ⟨i, h1, h2, h3⟩ := hc
    refine ⟨i, by omega, h2, ?_⟩
    intro j h4 h5
    by_cases hj2 : j ≤ to
    · exact h3 j h4 hj2
    · exact hw j (by omega) h5

/-! ### what the three reverse queries return -/

section
variable {db : Db} {tr : Track} (g : Good db tr) {hd to : Nat}
include g

omit g in
theorem Good.updated_storage (a : Addr) (k : Key) :
    (∃ id ∈ updatedKeys db.storage hd to, db.addrs[id.1]? = some a ∧ db.keys[id.2]? = some k) ↔
      ∃ r ∈ storageRows db a k, to < r.1 ∧ r.1 ≤ hd := by
  constructor
  · rintro ⟨id, hid, hp⟩
    obtain ⟨r, hr, rfl, h1, h2⟩ := mem_updatedKeys.1 hid
    exact ⟨(r.block, r.val), mem_sel (p := fun key : Nat × Nat => db.addrs[key.1]? = some a ∧ db.keys[key.2]? = some k) |>.2 ⟨r, hr, hp, rfl⟩, h1, h2⟩
  · rintro ⟨x, hx, h1, h2⟩
    obtain ⟨r, hr, hp, rfl⟩ := mem_sel (p := fun key : Nat × Nat => db.addrs[key.1]? = some a ∧ db.keys[key.2]? = some k) |>.1 hx
    exact ⟨r.key, mem_updatedKeys.2 ⟨r, hr, rfl, h1, h2⟩, hp⟩

theorem Good.old_storage (a : Addr) (k : Key) (id : Nat × Nat) (h1 : db.addrs[id.1]? = some a) (h2 : db.keys[id.2]? = some k)
    (hto : tr.lo ≤ to) : oldVal db.storage to id = asOf (·.storageOf a k) tr.updates to := by
  rw [← (g.storage a k).latest hto]
  exact oldVal_eq (p := fun key : Nat × Nat => db.addrs[key.1]? = some a ∧ db.keys[key.2]? = some k) (by
    rintro ⟨i, j⟩
    constructor
    · intro h
      simp only at h
      rw [nodup_getElem?_inj g.valid.addrs h.1 h1, nodup_getElem?_inj g.valid.keys h.2 h2]
    · rintro rfl; exact ⟨h1, h2⟩)

theorem Good.mem_reverseStorage (hto : tr.lo ≤ to) (a : Addr) (k : Key) (v : Val) :
    (k, v) ∈ ((reverseStorage db hd to).lookup a).getD [] ↔
      (∃ r ∈ storageRows db a k, to < r.1 ∧ r.1 ≤ hd) ∧ v = (asOf (·.storageOf a k) tr.updates to).getD 0 := by
  have gen : ∀ (ids : List (Nat × Nat)) (m : List (Addr × List (Key × Val))),
      ((k, v) ∈ ((ids.foldl (revStorageStep db to) m).lookup a).getD []) ↔
      (k, v) ∈ (m.lookup a).getD [] ∨
        ∃ id ∈ ids, db.addrs[id.1]? = some a ∧ db.keys[id.2]? = some k ∧ v = (oldVal db.storage to id).getD 0 := by
    intro ids
    induction ids with
    | nil => intro m; simp
    | cons id ids ih =>
      intro m
      rw [List.foldl_cons, ih]
      have hstep : ((k, v) ∈ ((revStorageStep db to m id).lookup a).getD []) ↔
          (k, v) ∈ (m.lookup a).getD [] ∨
            (db.addrs[id.1]? = some a ∧ db.keys[id.2]? = some k ∧ v = (oldVal db.storage to id).getD 0) := by
        unfold revStorageStep
        cases h1 : db.addrs[id.1]? with
        | none => simp
        | some a' =>
          cases h2 : db.keys[id.2]? with
          | none => simp
          | some k' =>
            simp only [Option.some.injEq]
            rw [alter_lookup]
            by_cases e : a = a'
            · subst e
              simp only [ite_true, Option.getD_some, List.mem_append, List.mem_singleton, Prod.mk.injEq, true_and]
              constructor
              · rintro (h | ⟨rfl, rfl⟩)
                · exact .inl h
                · exact .inr ⟨rfl, rfl⟩
              · rintro (h | ⟨rfl, rfl⟩)
                · exact .inl h
                · exact .inr ⟨rfl, rfl⟩
            · rw [if_neg e]
              constructor
              · exact .inl
              · rintro (h | ⟨h, _⟩)
                · exact h
                · exact absurd h.symm e
      rw [hstep]
      simp only [List.mem_cons, exists_eq_or_imp]
      rw [or_assoc]
  unfold reverseStorage
  rw [gen]
  simp only [List.lookup_nil, Option.getD_none, List.not_mem_nil, false_or]
  constructor
  · rintro ⟨id, hid, h1, h2, h3⟩
    refine ⟨(Good.updated_storage a k).1 ⟨id, hid, h1, h2⟩, ?_⟩
    rw [h3, g.old_storage a k id h1 h2 hto]
  · rintro ⟨h, hv⟩
    obtain ⟨id, hid, h1, h2⟩ := (Good.updated_storage a k).2 h
    exact ⟨id, hid, h1, h2, by rw [g.old_storage a k id h1 h2 hto]; exact hv⟩

omit g in
theorem Good.updated_nonce (a : Addr) :
    (∃ id ∈ updatedKeys db.nonces hd to, db.addrs[id]? = some a) ↔ ∃ r ∈ nonceRows db a, to < r.1 ∧ r.1 ≤ hd := by
  constructor
  · rintro ⟨id, hid, hp⟩
    obtain ⟨r, hr, rfl, h1, h2⟩ := mem_updatedKeys.1 hid
    exact ⟨(r.block, r.val), mem_sel (p := fun key : Nat => db.addrs[key]? = some a) |>.2 ⟨r, hr, hp, rfl⟩, h1, h2⟩
  · rintro ⟨x, hx, h1, h2⟩
    obtain ⟨r, hr, hp, rfl⟩ := mem_sel (p := fun key : Nat => db.addrs[key]? = some a) |>.1 hx
    exact ⟨r.key, mem_updatedKeys.2 ⟨r, hr, rfl, h1, h2⟩, hp⟩

theorem Good.mem_reverseNonce (hto : tr.lo ≤ to) (a : Addr) (v : Option Nonce) :
    (a, v) ∈ reverseNonce db hd to ↔
      (∃ r ∈ nonceRows db a, to < r.1 ∧ r.1 ≤ hd) ∧ v = asOf (·.nonceOf a) tr.updates to := by
  have hold : ∀ id, db.addrs[id]? = some a → oldVal db.nonces to id = asOf (·.nonceOf a) tr.updates to := by
    intro id h1
    rw [← (g.nonce a).latest hto]
    exact oldVal_eq (p := fun key : Nat => db.addrs[key]? = some a) (by
      intro i
      constructor
      · intro h; exact nodup_getElem?_inj g.valid.addrs h h1
      · rintro rfl; exact h1)
  unfold reverseNonce
  rw [List.mem_filterMap]
  simp only [Option.map_eq_some_iff, Prod.mk.injEq]
  constructor
  · rintro ⟨id, hid, a', h1, rfl, h2⟩
    refine ⟨(Good.updated_nonce a').1 ⟨id, hid, h1⟩, ?_⟩
    rw [← h2, hold id h1]
  · rintro ⟨h, hv⟩
    obtain ⟨id, hid, h1⟩ := (Good.updated_nonce a).2 h
    exact ⟨id, hid, a, h1, rfl, by rw [hold id h1, hv]⟩

theorem Good.old_class (hto : tr.lo ≤ to) (a : Addr) : oldVal db.contracts to a = asOf (·.classOf a) tr.updates to := by
  rw [← (g.cls a).latest hto]
  exact oldVal_eq (p := fun key : Nat => key = a) (fun _ => Iff.rfl)

omit g in
theorem Good.updated_class (a : Addr) :
    a ∈ updatedKeys db.contracts hd to ↔ ∃ r ∈ classRows db a, to < r.1 ∧ r.1 ≤ hd := by
  rw [mem_updatedKeys]
  constructor
  · rintro ⟨r, hr, e, h1, h2⟩
    exact ⟨(r.block, r.val), mem_sel (p := fun key : Nat => key = a) |>.2 ⟨r, hr, e, rfl⟩, h1, h2⟩
  · rintro ⟨x, hx, h1, h2⟩
    obtain ⟨r, hr, hp, rfl⟩ := mem_sel (p := fun key : Nat => key = a) |>.1 hx
    exact ⟨r, hr, hp, h1, h2⟩

end

/-! ### assembling the map -/

theorem classPhase_lookup (cs : List (Addr × Option Class)) (m : List (Addr × RevUpd)) (a : Addr)
    (hc : ∀ x y, (a, x) ∈ cs → (a, y) ∈ cs → x = y) :
    (cs.foldl (fun m p => if m.any (fun e => e.1 == p.1) then m
      else m ++ [(p.1, RevUpd.ofClass p.2)]) m).lookup a =
      (m.lookup a).or ((cs.lookup a).map RevUpd.ofClass) := by
  induction cs generalizing m with
  | nil => simp
  | cons p ps ih =>
    rw [List.foldl_cons, ih _ fun x y hx hy => hc x y (List.mem_cons_of_mem _ hx) (List.mem_cons_of_mem _ hy)]
    obtain ⟨b, o⟩ := p
    rw [List.lookup_cons]
    by_cases h : m.any (fun e => e.1 == b)
    · rw [if_pos h]
      by_cases e : a = b
      · subst e
        have : (m.lookup a).isSome := by
          rw [Option.isSome_iff_ne_none]
          intro hn
          rw [lookup_none_iff] at hn
          obtain ⟨q, hq, hq2⟩ := List.any_eq_true.1 h
          exact hn (List.mem_map.2 ⟨q, hq, by simpa using hq2⟩)
        obtain ⟨w, hw⟩ := Option.isSome_iff_exists.1 this
        simp [hw]
      · have e3 : (a == b) = false := by simpa using e
        rw [e3]
    · rw [if_neg h, List.lookup_append]
      by_cases e : a = b
      · subst e
        have hn : m.lookup a = none := by
          apply lookup_eq_none
          intro q hq e
          exact h (List.any_eq_true.2 ⟨q, hq, by simpa using e⟩)
        simp [hn]
      · have e3 : (a == b) = false := by simpa using e
        simp [List.lookup_cons, e3]

theorem noncePhase_lookup (ns : List (Addr × Option Nonce)) (m : List (Addr × RevUpd)) (a : Addr) (v : Option Nonce)
    (hv : ∀ x, (a, x) ∈ ns → x = v) :
    (ns.foldl (fun m p => alter m p.1 (.updated {}) (RevUpd.modify fun u => { u with nonce := p.2 })) m).lookup a =
      if a ∈ ns.map (·.1) then some (RevUpd.modify (fun u => { u with nonce := v }) ((m.lookup a).getD (.updated {})))
      else m.lookup a := by
  induction ns generalizing m with
  | nil => simp
  | cons p ps ih =>
    rw [List.foldl_cons, ih _ fun x hx => hv x (List.mem_cons_of_mem _ hx), alter_lookup]
    obtain ⟨b, o⟩ := p
    simp only [List.map_cons, List.mem_cons]
    by_cases e : a = b
    · subst e
      have := hv o (by simp)
      subst this
      simp only [ite_true, Option.getD_some, true_or]
      by_cases h2 : a ∈ ps.map (·.1)
      · rw [if_pos h2]
        congr 1
        cases (m.lookup a).getD (.updated {}) <;> rfl
      · rw [if_neg h2]
    · simp only [e, ite_false, false_or]

theorem storagePhase_lookup (ss : List (Addr × List (Key × Val))) (m : List (Addr × RevUpd)) (a : Addr)
    (hn : (ss.map (·.1)).Nodup) :
    (ss.foldl (fun m p => alter m p.1 (.updated {}) (RevUpd.modify fun u => { u with storage := p.2 })) m).lookup a =
      match ss.lookup a with
      | some l => some (RevUpd.modify (fun u => { u with storage := l }) ((m.lookup a).getD (.updated {})))
      | none => m.lookup a := by
  induction ss generalizing m with
  | nil => simp
  | cons p ps ih =>
    obtain ⟨b, l⟩ := p
    simp only [List.map_cons, List.nodup_cons] at hn
    rw [List.foldl_cons, ih _ hn.2, alter_lookup, List.lookup_cons]
    by_cases e : a = b
    · subst e
      have : ps.lookup a = none := lookup_none_iff.2 hn.1
      simp [this]
    · have e3 : (a == b) = false := by simpa using e
      simp only [e, ite_false, e3]

theorem put_keys {α : Type} (m : List (Nat × α)) (k : Nat) (v : α) (hn : (m.map (·.1)).Nodup) : ((put m k v).map (·.1)).Nodup := by
  unfold put
  by_cases h : m.any (fun e => e.1 == k)
  · rw [if_pos h, List.map_map]
    have : ((fun x : Nat × α => x.1) ∘ fun e : Nat × α => if e.1 = k then (k, v) else e) = fun d => d.1 := by
      funext d
      simp only [Function.comp]
      split
      · rename_i e; exact e.symm
      · rfl
    rw [this]; exact hn
  · rw [if_neg h, List.map_append, List.nodup_append]
    refine ⟨hn, by simp, ?_⟩
    intro a ha b hb e
    simp at hb
    obtain ⟨q, hq, hq2⟩ := List.mem_map.1 ha
    exact h (List.any_eq_true.2 ⟨q, hq, by simp [hq2, e, hb]⟩)

theorem reverseStorage_keys (db : Db) (hd to : Nat) : ((reverseStorage db hd to).map (·.1)).Nodup := by
  have gen : ∀ (ids : List (Nat × Nat)) (m : List (Addr × List (Key × Val))), (m.map (·.1)).Nodup →
      ((ids.foldl (revStorageStep db to) m).map (·.1)).Nodup := by
    intro ids
    induction ids with
    | nil => intro m hm; exact hm
    | cons id ids ih =>
      intro m hm
      rw [List.foldl_cons]
      apply ih
      unfold revStorageStep
      cases db.addrs[id.1]? with
      | none => exact hm
      | some a =>
        cases db.keys[id.2]? with
        | none => exact hm
        | some k => exact put_keys _ _ _ hm
  exact gen _ [] (by simp)

theorem reverseStorage_ne_nil (db : Db) (hd to : Nat) (a : Addr) : (reverseStorage db hd to).lookup a ≠ some [] := by
  have gen : ∀ (ids : List (Nat × Nat)) (m : List (Addr × List (Key × Val))), m.lookup a ≠ some [] →
      (ids.foldl (revStorageStep db to) m).lookup a ≠ some [] := by
    intro ids
    induction ids with
    | nil => intro m hm; exact hm
    | cons id ids ih =>
      intro m hm
      rw [List.foldl_cons]
      apply ih
      unfold revStorageStep
      cases db.addrs[id.1]? with
      | none => exact hm
      | some a =>
        cases db.keys[id.2]? with
        | none => exact hm
        | some k =>
          simp only
          rw [alter_lookup]
          split
          · simp
          · exact hm
  exact gen _ [] (by simp)

/-- The reverse update of one contract, spelled out. -/
theorem reverseContracts_lookup {db : Db} {tr : Track} (g : Good db tr) {hd to : Nat} (hto : tr.lo ≤ to) (a : Addr) :
    (reverseContracts db hd to).lookup a =
      let clsIn := decide (a ∈ updatedKeys db.contracts hd to)
      let nonceIn := decide (a ∈ (reverseNonce db hd to).map (·.1))
      let sto := (reverseStorage db hd to).lookup a
      let nonce := if nonceIn then asOf (·.nonceOf a) tr.updates to else none
      if clsIn then
        match asOf (·.classOf a) tr.updates to with
        | none => some .deleted
        | some c => some (.updated { cls := some (.replace c), nonce := nonce, storage := sto.getD [] })
      else if nonceIn || sto.isSome then some (.updated { cls := none, nonce := nonce, storage := sto.getD [] })
      else none := by
  unfold reverseContracts
  simp only
  rw [storagePhase_lookup _ _ _ (reverseStorage_keys db hd to)]
  rw [noncePhase_lookup _ _ a (asOf (·.nonceOf a) tr.updates to) fun x hx => ((g.mem_reverseNonce hto a x).1 hx).2]
  rw [classPhase_lookup _ _ a (by
    intro x y hx hy
    simp only [List.mem_map, Prod.mk.injEq] at hx hy
    obtain ⟨_, _, rfl, rfl⟩ := hx
    obtain ⟨_, _, rfl, rfl⟩ := hy
    rfl)]
  have hcs : ((updatedKeys db.contracts hd to).map fun a => (a, oldVal db.contracts to a)).lookup a =
      if a ∈ updatedKeys db.contracts hd to then some (asOf (·.classOf a) tr.updates to) else none := by
    rw [← g.old_class hto a]
    induction updatedKeys db.contracts hd to with
    | nil => rfl
    | cons b bs ih =>
      rw [List.map_cons, List.lookup_cons]
      by_cases e : a = b
      · subst e; simp
      · have e3 : (a == b) = false := by simpa using e
        rw [e3]
        simp only [ih, List.mem_cons, e, false_or]
  rw [hcs]
  simp only [List.lookup_nil, Option.none_or]
  generalize asOf (·.classOf a) tr.updates to = oc
  generalize asOf (·.nonceOf a) tr.updates to = on
  generalize (reverseStorage db hd to).lookup a = os
  by_cases h1 : a ∈ updatedKeys db.contracts hd to <;> by_cases h2 : a ∈ (reverseNonce db hd to).map (·.1) <;>
    cases oc <;> cases os <;> simp [h1, h2, RevUpd.modify, RevUpd.ofClass]

/-! ### setting keys -/

theorem setAll_of_mem {α : Type} (s : Nat → α) (l : List (Nat × α)) (k : Nat) (v : α) (hm : (k, v) ∈ l)
    (hv : ∀ w, (k, w) ∈ l → w = v) : setAll s l k = v := by
  unfold setAll
  have gen : ∀ (l : List (Nat × α)) (s : Nat → α), (∀ w, (k, w) ∈ l → w = v) → ((k, v) ∈ l ∨ s k = v) →
      l.foldl (fun s kv k => if k = kv.1 then kv.2 else s k) s k = v := by
    intro l
    induction l with
    | nil => intro s _ h; simpa using h
    | cons p ps ih =>
      intro s hv h
      rw [List.foldl_cons]
      apply ih _ fun w hw => hv w (List.mem_cons_of_mem _ hw)
      obtain ⟨k', v'⟩ := p
      by_cases e : k = k'
      · subst e
        right
        simp [hv v' (by simp)]
      · rcases h with h | h
        · rcases List.mem_cons.1 h with h | h
          · simp only [Prod.mk.injEq] at h; exact absurd h.1 e
          · exact .inl h
        · right; simp [e, h]
  exact gen l s hv (.inl hm)

theorem setAll_of_not_mem {α : Type} (s : Nat → α) (l : List (Nat × α)) (k : Nat) (hm : ∀ w, (k, w) ∉ l) : setAll s l k = s k := by
  unfold setAll
  induction l generalizing s with
  | nil => rfl
  | cons p ps ih =>
    rw [List.foldl_cons, ih _ fun w hw => hm w (List.mem_cons_of_mem _ hw)]
    obtain ⟨k', v'⟩ := p
    have e : k ≠ k' := fun e => hm v' (by simp [e])
    simp [e]

end Verif.State
