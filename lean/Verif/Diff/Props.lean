import Verif.Diff.Lemmas
/-!
# C37: the state diff commitment and length

The hashed stream depends only on the set of changes, and every change contributes. The length of `StateUpdate` is the number of changes;
that of `StateUpdateData` leaves out the migrated classes, which violates the property.
-/
namespace Verif.Diff

/-- The storage entries of contracts and system contracts. -/
def entries (u : SU) : List (Nat × List (Nat × Nat)) := (u.contracts.map fun p => (p.1, p.2.storage)) ++ u.system

theorem entries_inj {u : SU} (hu : u.Ok) : KeyInj (·.1) (entries u) := by
  intro x hx y hy e
  simp only [entries, List.mem_append, List.mem_map] at hx hy
  simp only at e
  rcases hx with ⟨p, hp, rfl⟩ | hx <;> rcases hy with ⟨q, hq, rfl⟩ | hy
  · have := keyInj_map hu.contracts p hp q hq e
    rw [this]
  · exact absurd e (hu.separate p hp y hy)
  · exact absurd e.symm (hu.separate q hq x hx)
  · exact keyInj_map hu.system x hx y hy e

theorem entries_nodup {u : SU} (hu : u.Ok) {a : Nat} {s : List (Nat × Nat)} (h : (a, s) ∈ entries u) : (s.map (·.1)).Nodup := by
  simp only [entries, List.mem_append, List.mem_map] at h
  rcases h with ⟨p, hp, e⟩ | h
  · cases e; exact hu.storage p hp
  · exact hu.sysStorage _ h

theorem has_storage (u : SU) (a k v : Nat) : u.Has (.storage a k v) ↔ ∃ s, (a, s) ∈ entries u ∧ (k, v) ∈ s := by
  simp only [SU.Has, entries, List.mem_append, List.mem_map]
  constructor
  · rintro (⟨c, h1, h2⟩ | ⟨s, h1, h2⟩)
    · exact ⟨c.storage, .inl ⟨(a, c), h1, rfl⟩, h2⟩
    · exact ⟨s, .inr h1, h2⟩
  · rintro ⟨s, ⟨p, hp, e⟩ | h1, h2⟩
    · cases e; exact .inl ⟨p.2, hp, h2⟩
    · exact .inr ⟨s, h1, h2⟩

/-- The elements of the storage differences. -/
theorem mem_storageDiffs {u : SU} (hu : u.Ok) (a : Nat) (m : List (Nat × Nat)) :
    (a, m) ∈ storageDiffs u ↔ ∃ s, (a, s) ∈ entries u ∧ s ≠ [] ∧ m = btree natLt (·.1) s := by
  have hk : KeyInj (·.1) ((entries u).filterMap fun p => if p.2.isEmpty then none else some (p.1, btree natLt (·.1) p.2)) := by
    intro x hx y hy e
    simp only [List.mem_filterMap] at hx hy
    obtain ⟨p, hp, e1⟩ := hx
    obtain ⟨q, hq, e2⟩ := hy
    split at e1
    · cases e1
    · split at e2
      · cases e2
      · cases e1; cases e2
        rw [entries_inj hu p hp q hq e]
  rw [show storageDiffs u = btree natLt (·.1) ((entries u).filterMap fun p => if p.2.isEmpty then none else some (p.1, btree natLt (·.1) p.2))
    from rfl, mem_btree natLt_ok hk]
  simp only [List.mem_filterMap]
  constructor
  · rintro ⟨p, hp, e⟩
    split at e
    · cases e
    · rename_i hne
      cases e
      exact ⟨p.2, hp, by simpa using hne, rfl⟩
  · rintro ⟨s, hs, hne, rfl⟩
    exact ⟨(a, s), hs, by simp [hne]⟩

theorem storageDiffs_sorted {u : SU} (hu : u.Ok) : Sorted natLt (·.1) (storageDiffs u) := by
  apply btree_sorted natLt_ok
  intro x hx y hy e
  simp only [List.mem_filterMap] at hx hy
  obtain ⟨p, hp, e1⟩ := hx
  obtain ⟨q, hq, e2⟩ := hy
  split at e1
  · cases e1
  · split at e2
    · cases e2
    · cases e1; cases e2
      rw [entries_inj hu p hp q hq e]

theorem storage_same {u u' : SU} (hu : u.Ok) (hu' : u'.Ok) (h : ∀ a k v, u.Has (.storage a k v) ↔ u'.Has (.storage a k v)) (a : Nat)
    (m : List (Nat × Nat)) (hm : (a, m) ∈ storageDiffs u) : (a, m) ∈ storageDiffs u' := by
  obtain ⟨s, hs, hne, rfl⟩ := (mem_storageDiffs hu a m).1 hm
  obtain ⟨⟨k, v⟩, l, rfl⟩ := List.exists_cons_of_ne_nil hne
  obtain ⟨s', hs', hv'⟩ := (has_storage u' a k v).1 ((h a k v).1 ((has_storage u a k v).2 ⟨_, hs, List.mem_cons_self⟩))
  refine (mem_storageDiffs hu' a _).2 ⟨s', hs', (by rintro rfl; cases hv'), ?_⟩
  refine (btree_eq_iff natLt_ok (keyInj_map (entries_nodup hu hs)) (keyInj_map (entries_nodup hu' hs'))).2 ?_
  rintro ⟨k, v⟩
  constructor
  · intro hx
    obtain ⟨s2, h1, h2⟩ := (has_storage u' a k v).1 ((h a k v).1 ((has_storage u a k v).2 ⟨_, hs, hx⟩))
    have := entries_inj hu' _ hs' _ h1 rfl
    cases this
    exact h2
  · intro hx
    obtain ⟨s2, h1, h2⟩ := (has_storage u a k v).1 ((h a k v).2 ((has_storage u' a k v).2 ⟨_, hs', hx⟩))
    have := entries_inj hu _ hs _ h1 rfl
    cases this
    exact h2

theorem storageDiffs_eq_iff {u u' : SU} (hu : u.Ok) (hu' : u'.Ok) :
    storageDiffs u = storageDiffs u' ↔ ∀ a k v, u.Has (.storage a k v) ↔ u'.Has (.storage a k v) := by
  constructor
  · intro h
    have one : ∀ {u u' : SU}, u.Ok → u'.Ok → storageDiffs u = storageDiffs u' → ∀ a k v, u.Has (.storage a k v) → u'.Has (.storage a k v) := by
      intro u u' hu hu' h a k v hx
      obtain ⟨s, hs, hv⟩ := (has_storage u a k v).1 hx
      have hm := (mem_storageDiffs hu a _).2 ⟨s, hs, (by rintro rfl; cases hv), rfl⟩
      rw [h] at hm
      obtain ⟨s', hs', _, e⟩ := (mem_storageDiffs hu' a _).1 hm
      refine (has_storage u' a k v).2 ⟨s', hs', ?_⟩
      exact ((btree_eq_iff natLt_ok (keyInj_map (entries_nodup hu hs)) (keyInj_map (entries_nodup hu' hs'))).1 e _).1 hv
    exact fun a k v => ⟨one hu hu' h a k v, one hu' hu h.symm a k v⟩
  · intro h
    refine sorted_ext natLt_ok (storageDiffs_sorted hu) (storageDiffs_sorted hu') ?_
    rintro ⟨a, m⟩
    exact ⟨storage_same hu hu' h a m, storage_same hu' hu (fun a k v => (h a k v).symm) a m⟩

theorem cls_inj {u : SU} (hu : u.Ok) : KeyInj (·.1) (u.contracts.filterMap fun p => p.2.cls.map fun c => (p.1, c.hash)) := by
  intro x hx y hy e
  simp only [List.mem_filterMap, Option.map_eq_some_iff] at hx hy
  obtain ⟨p, hp, c, e1, rfl⟩ := hx
  obtain ⟨q, hq, d, e2, rfl⟩ := hy
  have := keyInj_map hu.contracts p hp q hq e
  subst this
  rw [e1] at e2
  cases e2
  rfl

theorem nonce_inj {u : SU} (hu : u.Ok) : KeyInj (·.1) (u.contracts.filterMap fun p => p.2.nonce.map fun n => (p.1, n)) := by
  intro x hx y hy e
  simp only [List.mem_filterMap, Option.map_eq_some_iff] at hx hy
  obtain ⟨p, hp, c, e1, rfl⟩ := hx
  obtain ⟨q, hq, d, e2, rfl⟩ := hy
  have := keyInj_map hu.contracts p hp q hq e
  subst this
  rw [e1] at e2
  cases e2
  rfl

theorem mem_cls (u : SU) (a h : Nat) : (a, h) ∈ (u.contracts.filterMap fun p => p.2.cls.map fun c => (p.1, c.hash)) ↔ u.Has (.cls a h) := by
  simp only [SU.Has, List.mem_filterMap, Option.map_eq_some_iff]
  constructor
  · rintro ⟨p, hp, c, e1, e2⟩; cases e2; exact ⟨p.2, c, hp, e1, rfl⟩
  · rintro ⟨c, x, hp, e1, rfl⟩; exact ⟨(a, c), hp, x, e1, rfl⟩

theorem mem_nonce (u : SU) (a n : Nat) : (a, n) ∈ (u.contracts.filterMap fun p => p.2.nonce.map fun n => (p.1, n)) ↔ u.Has (.nonce a n) := by
  simp only [SU.Has, List.mem_filterMap, Option.map_eq_some_iff]
  constructor
  · rintro ⟨p, hp, c, e1, e2⟩; cases e2; exact ⟨p.2, hp, e1⟩
  · rintro ⟨c, hp, e1⟩; exact ⟨(a, c), hp, n, e1, rfl⟩

/-- C37. Two updates write the same elements to the hasher if and only if they have the same changes: the order of the maps does not
matter, and no change is left out. -/
theorem C37_stream (u u' : SU) (hu : u.Ok) (hu' : u'.Ok) : diffStream u = diffStream u' ↔ u.SameChanges u' := by
  rw [diffStream_inj, storageDiffs_eq_iff hu hu']
  unfold deployed classes cairoClasses nonces
  rw [btree_eq_iff natLt_ok (cls_inj hu) (cls_inj hu'), btree_eq_iff pairLt_ok (keyInj_id _) (keyInj_id _),
    btree_eq_iff natLt_ok (keyInj_id' _) (keyInj_id' _), btree_eq_iff natLt_ok (nonce_inj hu) (nonce_inj hu')]
  simp only [Prod.forall, mem_cls, mem_nonce, List.mem_append]
  constructor
  · rintro ⟨h1, h2, h3, h4, h5⟩; exact ⟨h4, h5, h1, h3, h2⟩
  · rintro ⟨h4, h5, h1, h3, h2⟩; exact ⟨h1, h2, h3, h4, h5⟩

/-- C37. The commitment depends only on the changes. -/
theorem C37_order (hash : List Nat → Nat) (u u' : SU) (hu : u.Ok) (hu' : u'.Ok) (h : u.SameChanges u') :
    commitment hash u = commitment hash u' := by
  unfold commitment
  rw [(C37_stream u u' hu hu').2 h]

/-- C37. Every change contributes: updates with different changes have different commitments, or their streams are a collision of the
hash function. -/
theorem C37_complete (hash : List Nat → Nat) (u u' : SU) (hu : u.Ok) (hu' : u'.Ok) (h : commitment hash u = commitment hash u') :
    u.SameChanges u' ∨ (diffStream u ≠ diffStream u' ∧ hash (diffStream u) = hash (diffStream u')) := by
  by_cases e : diffStream u = diffStream u'
  · exact .inl ((C37_stream u u' hu hu').1 e)
  · exact .inr ⟨e, h⟩

/-! ## The length -/

/-- The changes of one contract. -/
def contractChanges (p : Nat × CUpd) : List Change :=
  p.2.storage.map (fun q => .storage p.1 q.1 q.2) ++ (p.2.nonce.toList.map (.nonce p.1) ++ p.2.cls.toList.map fun c => .cls p.1 c.hash)

/-- All changes. -/
def changes (u : SU) : List Change :=
  u.contracts.flatMap contractChanges ++ (u.system.flatMap (fun p => p.2.map fun q => .storage p.1 q.1 q.2) ++
    (u.cairo.map .cairo ++ (u.sierra.map (fun p => .sierra p.1 p.2) ++ u.migrated.map fun p => .migrated p.1 p.2)))

theorem mem_changes (u : SU) (x : Change) : x ∈ changes u ↔ u.Has x := by
  simp only [changes, contractChanges, List.mem_append, List.mem_flatMap, List.mem_map, Option.mem_toList]
  cases x <;> simp only [SU.Has, Change.storage.injEq, Change.nonce.injEq, Change.cls.injEq, Change.cairo.injEq, Change.sierra.injEq,
    Change.migrated.injEq, reduceCtorEq, and_false, exists_false, or_false, false_or, exists_eq_right]
  · constructor
    · rintro (⟨p, hp, q, hq, rfl, rfl, rfl⟩ | ⟨p, hp, q, hq, rfl, rfl, rfl⟩)
      · exact .inl ⟨p.2, hp, hq⟩
      · exact .inr ⟨p.2, hp, hq⟩
    · rintro (⟨c, hp, hq⟩ | ⟨c, hp, hq⟩)
      · exact .inl ⟨(_, c), hp, (_, _), hq, rfl, rfl, rfl⟩
      · exact .inr ⟨(_, c), hp, (_, _), hq, rfl, rfl, rfl⟩
  · constructor
    · rintro ⟨p, hp, q, hq, rfl, rfl⟩
      exact ⟨p.2, hp, hq⟩
    · rintro ⟨c, hp, hq⟩
      exact ⟨(_, c), hp, _, hq, rfl, rfl⟩
  · constructor
    · rintro ⟨p, hp, q, hq, rfl, rfl⟩
      exact ⟨p.2, q, hp, hq, rfl⟩
    · rintro ⟨c, x, hp, hq, rfl⟩
      exact ⟨(_, c), hp, _, hq, rfl, rfl⟩
  · constructor
    · rintro ⟨p, hp, rfl, rfl⟩; exact hp
    · intro h; exact ⟨_, h, rfl, rfl⟩
  · constructor
    · rintro ⟨p, hp, rfl, rfl⟩; exact hp
    · intro h; exact ⟨_, h, rfl, rfl⟩

theorem nodup_of_map {α β : Type} (f : α → β) {l : List α} (h : (l.map f).Nodup) : l.Nodup := by
  rw [List.nodup_iff_pairwise_ne, List.pairwise_map] at h
  exact h.imp fun hab e => hab (by rw [e])

theorem nodup_map {α β : Type} (f : α → β) (hf : ∀ a b, f a = f b → a = b) {l : List α} (h : l.Nodup) : (l.map f).Nodup := by
  rw [List.nodup_iff_pairwise_ne, List.pairwise_map]
  exact (List.nodup_iff_pairwise_ne.1 h).imp fun hab e => hab (hf _ _ e)

/-- The address of a change of a contract. -/
def Change.addr : Change → Option Nat
  | .storage a _ _ => some a
  | .nonce a _ => some a
  | .cls a _ => some a
  | _ => none

theorem nodup_flatMap_key {β : Type} (f : Nat × β → List Change) (l : List (Nat × β)) (hn : (l.map (·.1)).Nodup)
    (h1 : ∀ p ∈ l, (f p).Nodup) (h2 : ∀ p ∈ l, ∀ x ∈ f p, x.addr = some p.1) : (l.flatMap f).Nodup := by
  rw [List.nodup_iff_pairwise_ne, List.pairwise_flatMap]
  refine ⟨fun p hp => List.nodup_iff_pairwise_ne.1 (h1 p hp), ?_⟩
  rw [List.nodup_iff_pairwise_ne, List.pairwise_map] at hn
  refine hn.imp_of_mem fun {p q} hp hq hpq x hx y hy e => hpq ?_
  have a := h2 p hp x hx
  have b := h2 q hq y hy
  rw [e, b] at a
  exact (Option.some.inj a).symm

theorem changes_nodup {u : SU} (hu : u.Ok) : (changes u).Nodup := by
  have hc : (u.contracts.flatMap contractChanges).Nodup := by
    refine nodup_flatMap_key _ _ hu.contracts ?_ ?_
    · intro p hp
      unfold contractChanges
      rw [List.nodup_append, List.nodup_append]
      refine ⟨nodup_map _ (by rintro ⟨a, b⟩ ⟨c, d⟩ h; simp at h; simp [h]) (nodup_of_map _ (hu.storage p hp)), ⟨?_, ?_, ?_⟩, ?_⟩
      · cases p.2.nonce <;> simp
      · cases p.2.cls <;> simp
      · intro x hx y hy
        simp only [List.mem_map, Option.mem_toList] at hx hy
        obtain ⟨_, _, rfl⟩ := hx
        obtain ⟨_, _, rfl⟩ := hy
        nofun
      · intro x hx y hy
        simp only [List.mem_append, List.mem_map] at hx hy
        obtain ⟨_, _, rfl⟩ := hx
        rcases hy with ⟨_, _, rfl⟩ | ⟨_, _, rfl⟩ <;> nofun
    · intro p _ x hx
      simp only [contractChanges, List.mem_append, List.mem_map] at hx
      rcases hx with ⟨_, _, rfl⟩ | ⟨_, _, rfl⟩ | ⟨_, _, rfl⟩ <;> rfl
  have hs : (u.system.flatMap fun p => p.2.map fun q => Change.storage p.1 q.1 q.2).Nodup := by
    refine nodup_flatMap_key _ _ hu.system ?_ ?_
    · intro p hp
      exact nodup_map _ (by rintro ⟨a, b⟩ ⟨c, d⟩ h; simp at h; simp [h]) (nodup_of_map _ (hu.sysStorage p hp))
    · intro p _ x hx
      simp only [List.mem_map] at hx
      obtain ⟨_, _, rfl⟩ := hx
      rfl
  unfold changes
  rw [List.nodup_append, List.nodup_append, List.nodup_append, List.nodup_append]
  refine ⟨hc, ⟨hs, ⟨nodup_map _ (by intro a b h; cases h; rfl) hu.cairo, ⟨nodup_map _ (by rintro ⟨a, b⟩ ⟨c, d⟩ h; cases h; rfl) (nodup_of_map _ hu.sierra),
    nodup_map _ (by rintro ⟨a, b⟩ ⟨c, d⟩ h; cases h; rfl) (nodup_of_map _ hu.migrated), ?_⟩, ?_⟩, ?_⟩, ?_⟩
  · intro x hx y hy
    simp only [List.mem_map] at hx hy
    obtain ⟨_, _, rfl⟩ := hx
    obtain ⟨_, _, rfl⟩ := hy
    nofun
  · intro x hx y hy
    simp only [List.mem_append, List.mem_map] at hx hy
    obtain ⟨_, _, rfl⟩ := hx
    rcases hy with ⟨_, _, rfl⟩ | ⟨_, _, rfl⟩ <;> nofun
  · intro x hx y hy
    simp only [List.mem_append, List.mem_map, List.mem_flatMap] at hx hy
    obtain ⟨_, _, _, _, rfl⟩ := hx
    rcases hy with ⟨_, _, rfl⟩ | ⟨_, _, rfl⟩ | ⟨_, _, rfl⟩ <;> nofun
  · intro x hx y hy e
    subst e
    simp only [List.mem_append, List.mem_map, List.mem_flatMap, contractChanges] at hx hy
    obtain ⟨p, hp, hx⟩ := hx
    rcases hy with ⟨q, hq, z, hz, rfl⟩ | ⟨_, _, rfl⟩ | ⟨_, _, rfl⟩ | ⟨_, _, rfl⟩
    · rcases hx with ⟨_, _, e⟩ | ⟨_, _, e⟩ | ⟨_, _, e⟩
      · exact hu.separate p hp q hq (Change.storage.inj e).1
      · cases e
      · cases e
    all_goals rcases hx with ⟨_, _, e⟩ | ⟨_, _, e⟩ | ⟨_, _, e⟩ <;> cases e

theorem changes_length (u : SU) : (changes u).length = lengthUpdate u := by
  simp only [changes, List.length_append, List.length_map, List.length_flatMap, lengthUpdate, contractsLength, systemLength]
  have : (u.contracts.map fun p => (contractChanges p).length) =
      u.contracts.map fun p => p.2.storage.length + p.2.nonce.isSome.toNat + p.2.cls.isSome.toNat := by
    apply List.map_congr_left
    intro p _
    simp only [contractChanges, List.length_append, List.length_map]
    cases p.2.nonce <;> cases p.2.cls <;> simp
  rw [this]
  omega

/-- C37. The length of a state update is the number of its changes: of every list that has each of them once. -/
theorem C37_length (u : SU) (hu : u.Ok) (l : List Change) (hl : l.Nodup) (hm : ∀ x, x ∈ l ↔ u.Has x) : lengthUpdate u = l.length := by
  rw [← changes_length]
  refine List.Perm.length_eq ?_
  rw [List.perm_ext_iff_of_nodup (changes_nodup hu) hl]
  intro x
  rw [mem_changes, hm]

/-- C37. The documented number of changes: everything except migrated classes, which its documentation does not list. -/
theorem C37_change_count (u : SU) (hu : u.Ok) (l : List Change) (hl : l.Nodup)
    (hm : ∀ x, x ∈ l ↔ u.Has x ∧ ∀ s c, x ≠ .migrated s c) : changeCount u = l.length := by
  have h := C37_length { u with migrated := [] } { hu with migrated := by simp } l hl (by
    intro x
    rw [hm]
    cases x <;> simp [SU.Has])
  rw [← h]
  unfold changeCount lengthUpdate contractsLength
  have : (u.contracts.map fun p => p.2.storage.length + p.2.cls.isSome.toNat + p.2.nonce.isSome.toNat) =
      u.contracts.map fun p => p.2.storage.length + p.2.nonce.isSome.toNat + p.2.cls.isSome.toNat := by
    apply List.map_congr_left
    intro p _
    omega
  rw [this]
  simp only [systemLength, List.length_nil]
  omega

/-- C37, the part that holds for `StateUpdateData`: without migrated classes its length is the number of changes. -/
theorem C37_length_data_partial (u : SU) (hu : u.Ok) (hmig : u.migrated = []) (l : List Change) (hl : l.Nodup)
    (hm : ∀ x, x ∈ l ↔ u.Has x) : lengthData u = l.length := by
  rw [← C37_length u hu l hl hm]
  simp [lengthData, lengthUpdate, hmig]

/-- C37 is violated for `StateUpdateData`: its length is too small by the number of migrated classes, for every update. -/
theorem C37_length_data_violated (u : SU) : lengthData u + u.migrated.length = lengthUpdate u := by
  unfold lengthData lengthUpdate
  omega

/-- C37 is violated: an update with a change counts as empty, and two updates with different changes have the same length, so that the
gateway header and the header that is stored for it differ. -/
theorem C37_empty_violated : ∃ u : SU, u.Ok ∧ u.Has (.migrated 1 2) ∧ isEmptyData u = true ∧ lengthData u = 0 ∧ lengthUpdate u = 1 := by
  refine ⟨{ migrated := [(1, 2)] }, ?_, ?_, ?_, ?_, ?_⟩
  · constructor <;> decide
  all_goals first | rfl | simp [SU.Has]

/-- C37, the part of `is_empty` that holds: an update with a change that is not a migrated class is not empty. -/
theorem C37_empty_partial (u : SU) (x : Change) (hx : u.Has x) (hm : ∀ s c, x ≠ .migrated s c) : isEmptyData u = false := by
  cases e : isEmptyData u with
  | false => rfl
  | true =>
    simp only [isEmptyData, Bool.and_eq_true, List.isEmpty_iff] at e
    obtain ⟨⟨⟨e1, e2⟩, e3⟩, e4⟩ := e
    cases x <;> simp_all [SU.Has]

/-! ## Examples -/

def exU : SU :=
  { contracts := [(7, { storage := [(4, 1), (3, 2)], cls := some (.deploy 9), nonce := some 5 }), (5, { nonce := some 1 })]
    system := [(1, [(8, 8)])]
    cairo := [30, 20]
    sierra := [(6, 1)]
    migrated := [(2, 3)] }

/-- The same changes in another order. -/
def exU' : SU :=
  { contracts := [(5, { nonce := some 1 }), (7, { storage := [(3, 2), (4, 1)], cls := some (.deploy 9), nonce := some 5 })]
    system := [(1, [(8, 8)])]
    cairo := [20, 30]
    sierra := [(6, 1)]
    migrated := [(2, 3)] }

theorem exU_ok : exU.Ok := by constructor <;> decide
theorem exU'_ok : exU'.Ok := by constructor <;> decide

example : diffStream exU = [diffPrefix, 1, 7, 9, 2, 2, 3, 6, 1, 2, 20, 30, 1, 0, 2, 1, 1, 8, 8, 7, 2, 3, 2, 4, 1, 2, 5, 1, 7, 5] := by decide
example : exU.SameChanges exU' := (C37_stream exU exU' exU_ok exU'_ok).1 (by decide)
example : lengthUpdate exU = 10 := by decide
example : lengthUpdate exU = (changes exU).length := C37_length exU exU_ok _ (changes_nodup exU_ok) (mem_changes exU)
/-- Another nonce is another stream. -/
example : ¬ exU.SameChanges { exU with contracts := exU.contracts.take 1 } := fun h =>
  absurd ((C37_stream exU _ exU_ok (by constructor <;> decide)).2 h) (by decide)

end Verif.Diff
