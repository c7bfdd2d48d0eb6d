import Verif.Serve.Lemmas
import Verif.State.ReadBackProps
/-! # Lemmas about served state diffs -/
namespace Verif.Serve

open Verif.Sync
open Verif.State (Update ContractUpd isSystem put alter withNonce withStorage withClass putSet lookup_mem lookup_of_mem)

/-! ## Reading the messages -/

/-- The number of changes that a message counts for. -/
def cost (system : Nat → Bool) : DiffResp → Nat
  | .contract x nonce cls values => values.length + if system x then 0 else nonce.isSome.toNat + cls.isSome.toNat
  | .declared _ _ => 1
  | .stop => 0

theorem absorb_enough {system : Nat → Bool} {r : DiffResp} (hr : r ≠ .stop) {left : Nat} (h : cost system r ≤ left) (acc : DiffAcc) :
    ∃ acc', absorbDiff system acc left r = .ok () acc' (left - cost system r) := by
  cases r with
  | contract x nonce cls values =>
    simp only [cost] at h ⊢
    simp only [absorbDiff]
    rw [if_neg (by omega)]
    cases hs : system x with
    | true => simp only [hs, if_true, Nat.add_zero] at h ⊢; exact ⟨_, rfl⟩
    | false =>
      simp only [hs, Bool.false_eq_true, if_false] at h ⊢
      cases nonce <;> cases cls <;> simp only [Option.isSome_none, Option.isSome_some, Bool.toNat_false, Bool.toNat_true] at h ⊢
      · exact ⟨_, rfl⟩
      · rw [if_neg (by omega)]; exact ⟨_, rfl⟩
      · rw [if_neg (by omega)]; exact ⟨_, rfl⟩
      · rw [if_neg (by omega)]; exact ⟨_, rfl⟩
  | declared hh casm =>
    simp only [cost] at h
    cases casm <;> simp only [absorbDiff, cost] <;> rw [if_neg (by omega)] <;> exact ⟨_, rfl⟩
  | stop => exact absurd rfl hr

theorem absorb_short {system : Nat → Bool} {r : DiffResp} {left : Nat} (h : left < cost system r) (acc : DiffAcc) :
    absorbDiff system acc left r = .nextPeer := by
  cases r with
  | contract x nonce cls values =>
    simp only [cost] at h
    simp only [absorbDiff]
    by_cases hv : left < values.length
    · rw [if_pos hv]
    · rw [if_neg hv]
      cases hs : system x with
      | true => simp only [hs, if_true, Nat.add_zero] at h; omega
      | false =>
        simp only [hs, Bool.false_eq_true, if_false] at h ⊢
        cases nonce <;> cases cls <;> simp only [Option.isSome_none, Option.isSome_some, Bool.toNat_false, Bool.toNat_true] at h ⊢
        · omega
        · rw [if_pos (by omega)]
        · rw [if_pos (by omega)]
        · rw [if_pos (by omega)]
  | declared hh casm =>
    simp only [cost] at h
    cases casm <;> simp only [absorbDiff] <;> rw [if_pos (by omega)]
  | stop => rfl

theorem reads_all {system : Nat → Bool} {rs : List DiffResp} (hr : ∀ r ∈ rs, r ≠ .stop ∧ 1 ≤ cost system r) (acc : DiffAcc) :
    ∃ a, Reads (diffKind system) () acc (rs.map (cost system)).sum rs () a := by
  induction rs generalizing acc with
  | nil => exact ⟨acc, .done _ _⟩
  | cons r rs ih =>
    obtain ⟨h1, h2⟩ := hr r List.mem_cons_self
    simp only [List.map_cons, List.sum_cons]
    obtain ⟨acc', ha⟩ := absorb_enough (system := system) (left := cost system r + (rs.map (cost system)).sum) h1 (by omega) acc
    obtain ⟨a, hreads⟩ := ih (fun x hx => hr x (List.mem_cons_of_mem _ hx)) acc'
    refine ⟨a, ?_⟩
    have e : cost system r + (rs.map (cost system)).sum = (cost system r - 1 + (rs.map (cost system)).sum) + 1 := by omega
    rw [e] at ha ⊢
    refine .step ha ?_
    have e2 : cost system r - 1 + (rs.map (cost system)).sum + 1 - cost system r = (rs.map (cost system)).sum := by omega
    rw [e2]
    exact hreads

theorem readSingle_reads {system : Nat → Bool} {c c' : Unit} {acc a : DiffAcc} {n : Nat} {seg : List DiffResp}
    (h : Reads (diffKind system) c acc n seg c' a) (rest : List DiffResp) :
    readSingle system acc n (seg ++ .stop :: rest) = .update a := by
  induction h with
  | done c a => rfl
  | @step c c' c'' a a' a'' n n' r seg hr _ ih =>
    have hr' : absorbDiff system a (n + 1) r = .ok c' a' n' := hr
    cases r with
    | stop => simp [absorbDiff] at hr'
    | contract x y z w => simp only [List.cons_append, readSingle, hr']; exact ih
    | declared x y => simp only [List.cons_append, readSingle, hr']; exact ih

/-- Messages that do not make up the expected number of changes. -/
theorem readSingle_wrong {system : Nat → Bool} {rs : List DiffResp} (hr : ∀ r ∈ rs, r ≠ .stop) (rest : List DiffResp) :
    ∀ (acc : DiffAcc) (n : Nat), n ≠ (rs.map (cost system)).sum → readSingle system acc n (rs ++ .stop :: rest) = .wrongCount := by
  induction rs with
  | nil => intro acc n h; simp only [List.nil_append, readSingle]; rw [if_neg (by simpa using h)]
  | cons r rs ih =>
    intro acc n h
    simp only [List.map_cons, List.sum_cons] at h
    have h1 := hr r List.mem_cons_self
    by_cases hc : cost system r ≤ n
    · obtain ⟨acc', ha⟩ := absorb_enough h1 hc acc
      have := ih (fun x hx => hr x (List.mem_cons_of_mem _ hx)) acc' (n - cost system r) (by omega)
      cases r with
      | stop => exact absurd rfl h1
      | contract x y z w => simp only [List.cons_append, readSingle, ha]; exact this
      | declared x y => simp only [List.cons_append, readSingle, ha]; exact this
    · have ha := absorb_short (system := system) (r := r) (by omega : n < cost system r) acc
      cases r with
      | stop => exact absurd rfl h1
      | contract x y z w => simp only [List.cons_append, readSingle, ha]
      | declared x y => simp only [List.cons_append, readSingle, ha]

/-- Too few changes before the end mark: the stream asks the next peer. -/
theorem fill_short {system : Nat → Bool} {rs : List DiffResp} (hr : ∀ r ∈ rs, r ≠ .stop) (rest : List DiffResp) :
    ∀ (acc : DiffAcc) (n : Nat), (rs.map (cost system)).sum < n →
      ∃ left, fill (diffKind system) () acc n (rs ++ .stop :: rest) = .nextPeer left := by
  induction rs with
  | nil =>
    intro acc n h
    obtain ⟨m, rfl⟩ : ∃ m, n = m + 1 := ⟨n - 1, by simp at h; omega⟩
    exact ⟨m + 1, rfl⟩
  | cons r rs ih =>
    intro acc n h
    simp only [List.map_cons, List.sum_cons] at h
    obtain ⟨m, rfl⟩ : ∃ m, n = m + 1 := ⟨n - 1, by omega⟩
    obtain ⟨acc', ha⟩ := absorb_enough (system := system) (hr r List.mem_cons_self) (by omega : cost system r ≤ m + 1) acc
    have ha' : (diffKind system).absorb () acc (m + 1) r = .ok () acc' (m + 1 - cost system r) := ha
    obtain ⟨left, hl⟩ := ih (fun x hx => hr x (List.mem_cons_of_mem _ hx)) acc' (m + 1 - cost system r) (by omega)
    exact ⟨left, by simp only [List.cons_append, fill, ha']; exact hl⟩

/-! ## The messages of an update -/

theorem messages_not_stop (u : Update) : ∀ r ∈ diffMessages u, r ≠ .stop := by
  intro r hr
  simp only [diffMessages, List.mem_append, List.mem_map] at hr
  rcases hr with ((⟨_, _, rfl⟩ | ⟨_, _, rfl⟩) | ⟨_, _, rfl⟩) | ⟨_, _, rfl⟩ <;> simp

theorem sum_ones {α : Type} (l : List α) : (l.map fun _ => 1).sum = l.length := by
  induction l with
  | nil => rfl
  | cons x l ih => simp [ih]; omega

theorem messages_cost {u : Update} (hc : ∀ p ∈ u.contracts, isSystem p.1 = false) :
    ((diffMessages u).map (cost isSystem)).sum + u.migrated.length = Diff.lengthUpdate (toSU u) := by
  have e1 : (u.contracts.map (cost isSystem ∘ fun p => .contract p.1 p.2.nonce (p.2.cls.map (·.hash)) p.2.storage)).sum =
      Diff.contractsLength (toSU u) := by
    unfold Diff.contractsLength toSU
    simp only [List.map_map]
    congr 1
    apply List.map_congr_left
    intro p hp
    simp only [Function.comp, cost, hc p hp, Bool.false_eq_true, if_false, Option.isSome_map]
    omega
  have e2 : (u.system.map (cost isSystem ∘ fun p => .contract p.1 none none p.2)).sum = Diff.systemLength (toSU u) := by
    unfold Diff.systemLength toSU
    congr 1
    apply List.map_congr_left
    intro p _
    simp [cost]
  have e3 : (u.cairo.map (cost isSystem ∘ fun h => .declared h none)).sum = u.cairo.length := sum_ones u.cairo
  have e4 : (u.sierra.map (cost isSystem ∘ fun p => .declared p.1 (some p.2))).sum = u.sierra.length := sum_ones u.sierra
  unfold diffMessages Diff.lengthUpdate
  simp only [List.map_append, List.map_map, List.sum_append, e1, e2, e3, e4]
  simp only [toSU]
  omega

theorem messages_tidy {u : Update} (h : Tidy u) : ∀ r ∈ diffMessages u, r ≠ .stop ∧ 1 ≤ cost isSystem r := by
  intro r hr
  refine ⟨messages_not_stop u r hr, ?_⟩
  simp only [diffMessages, List.mem_append, List.mem_map] at hr
  rcases hr with ((⟨p, hp, rfl⟩ | ⟨p, hp, rfl⟩) | ⟨_, _, rfl⟩) | ⟨_, _, rfl⟩
  · obtain ⟨h1, h2⟩ := h.contracts p hp
    simp only [cost, h1, Bool.false_eq_true, if_false, Option.isSome_map]
    rcases h2 with h2 | h2 | h2
    · have := List.length_pos_iff.2 h2; omega
    · cases hn : p.2.nonce with
      | none => exact absurd hn h2
      | some x => simp only [Option.isSome_some, Bool.toNat_true]; omega
    · cases hn : p.2.cls with
      | none => exact absurd hn h2
      | some x => simp only [Option.isSome_some, Bool.toNat_true]; omega
  · obtain ⟨_, h2⟩ := h.system p hp
    have := List.length_pos_iff.2 h2
    simp only [cost]; omega
  · exact Nat.le_refl 1
  · exact Nat.le_refl 1

theorem messages_carry {u : Update} (h : Tidy u) (hm : u.migrated = []) :
    ∃ a, Reads (diffKind isSystem) () (diffKind isSystem).empty (Diff.lengthUpdate (toSU u)) (diffMessages u) () a ∧ Carries a u := by
  obtain ⟨a, ha⟩ := reads_all (messages_tidy h) (diffKind isSystem).empty
  have hcost := messages_cost fun p hp => (h.contracts p hp).1
  rw [hm, List.length_nil, Nat.add_zero] at hcost
  rw [hcost] at ha
  refine ⟨a, ha, ?_⟩
  obtain ⟨_, g1, g2, g3, g4, g5⟩ := C64_diff isSystem _ _ _ ha
  constructor
  · intro x k v
    rw [g1, List.mem_reverse]
    simp only [diffMessages, List.flatMap_append, List.mem_append, List.mem_flatMap, List.mem_map]
    constructor
    · rintro (((⟨_, ⟨p, hp, rfl⟩, hv⟩ | ⟨_, ⟨p, hp, rfl⟩, hv⟩) | ⟨_, ⟨p, hp, rfl⟩, hv⟩) | ⟨_, ⟨p, hp, rfl⟩, hv⟩)
      · simp only [DiffResp.values, List.mem_map] at hv
        obtain ⟨w, hw, e⟩ := hv
        cases e
        exact .inl ⟨p.2, hp, hw⟩
      · simp only [DiffResp.values, List.mem_map] at hv
        obtain ⟨w, hw, e⟩ := hv
        cases e
        exact .inr ⟨p.2, hp, hw⟩
      · simp [DiffResp.values] at hv
      · simp [DiffResp.values] at hv
    · rintro (⟨c, hc, hv⟩ | ⟨s, hs, hv⟩)
      · exact .inl (.inl (.inl ⟨_, ⟨_, hc, rfl⟩, by simp only [DiffResp.values, List.mem_map]; exact ⟨_, hv, rfl⟩⟩))
      · exact .inl (.inl (.inr ⟨_, ⟨_, hs, rfl⟩, by simp only [DiffResp.values, List.mem_map]; exact ⟨_, hv, rfl⟩⟩))
  · intro x n
    rw [g2, List.mem_reverse]
    simp only [diffMessages, List.flatMap_append, List.mem_append, List.mem_flatMap, List.mem_map]
    constructor
    · rintro (((⟨_, ⟨p, hp, rfl⟩, hv⟩ | ⟨_, ⟨p, hp, rfl⟩, hv⟩) | ⟨_, ⟨p, hp, rfl⟩, hv⟩) | ⟨_, ⟨p, hp, rfl⟩, hv⟩)
      · cases hn : p.2.nonce with
        | none => simp [DiffResp.nonces, hn] at hv
        | some y =>
          simp only [DiffResp.nonces, hn, (h.contracts p hp).1, Bool.false_eq_true, if_false, List.mem_singleton] at hv
          cases hv
          exact ⟨p.2, hp, hn⟩
      · simp [DiffResp.nonces] at hv
      · simp [DiffResp.nonces] at hv
      · simp [DiffResp.nonces] at hv
    · rintro ⟨c, hc, hn⟩
      refine .inl (.inl (.inl ⟨_, ⟨_, hc, rfl⟩, ?_⟩))
      have := (h.contracts _ hc).1
      simp only at this
      simp [DiffResp.nonces, hn, this]
  · intro x hh
    rw [g3, List.mem_reverse]
    simp only [diffMessages, List.flatMap_append, List.mem_append, List.mem_flatMap, List.mem_map]
    constructor
    · rintro (((⟨_, ⟨p, hp, rfl⟩, hv⟩ | ⟨_, ⟨p, hp, rfl⟩, hv⟩) | ⟨_, ⟨p, hp, rfl⟩, hv⟩) | ⟨_, ⟨p, hp, rfl⟩, hv⟩)
      · cases hn : p.2.cls with
        | none => simp [DiffResp.classes, hn] at hv
        | some y =>
          simp only [DiffResp.classes, hn, Option.map_some, (h.contracts p hp).1, Bool.false_eq_true, if_false, List.mem_singleton] at hv
          cases hv
          exact ⟨p.2, y, hp, hn, rfl⟩
      · simp [DiffResp.classes] at hv
      · simp [DiffResp.classes] at hv
      · simp [DiffResp.classes] at hv
    · rintro ⟨c, k, hc, hn, rfl⟩
      refine .inl (.inl (.inl ⟨_, ⟨_, hc, rfl⟩, ?_⟩))
      have := (h.contracts _ hc).1
      simp only at this
      simp [DiffResp.classes, hn, this]
  · intro p
    rw [g4, List.mem_reverse]
    simp only [diffMessages, List.flatMap_append, List.mem_append, List.mem_flatMap, List.mem_map]
    constructor
    · rintro (((⟨_, ⟨p, hp, rfl⟩, hv⟩ | ⟨_, ⟨p, hp, rfl⟩, hv⟩) | ⟨_, ⟨p, hp, rfl⟩, hv⟩) | ⟨_, ⟨p, hp, rfl⟩, hv⟩) <;>
        simp [DiffResp.sierra] at hv
      subst hv; exact hp
    · intro hp
      exact .inr ⟨_, ⟨_, hp, rfl⟩, by simp [DiffResp.sierra]⟩
  · intro p
    rw [g5, List.mem_reverse]
    simp only [diffMessages, List.flatMap_append, List.mem_append, List.mem_flatMap, List.mem_map]
    constructor
    · rintro (((⟨_, ⟨p, hp, rfl⟩, hv⟩ | ⟨_, ⟨p, hp, rfl⟩, hv⟩) | ⟨_, ⟨p, hp, rfl⟩, hv⟩) | ⟨_, ⟨p, hp, rfl⟩, hv⟩) <;>
        simp [DiffResp.cairo] at hv
      subst hv; exact hp
    · intro hp
      exact .inl (.inr ⟨_, ⟨_, hp, rfl⟩, by simp [DiffResp.cairo]⟩)

/-! ## Updates that are read from the database -/

theorem put_ne_nil {α : Type} (m : List (Nat × α)) (k : Nat) (v : α) : put m k v ≠ [] := by
  unfold put
  split
  · rename_i h
    cases m with
    | nil => simp at h
    | cons x m => simp
  · simp

theorem mem_put {α : Type} {m : List (Nat × α)} {k : Nat} {v : α} {p : Nat × α} (h : p ∈ put m k v) : p = (k, v) ∨ p ∈ m := by
  unfold put at h
  split at h
  · obtain ⟨e, he, h2⟩ := List.mem_map.1 h
    split at h2
    · exact .inl h2.symm
    · exact .inr (h2 ▸ he)
  · rcases List.mem_append.1 h with h | h
    · exact .inr h
    · exact .inl (by simpa using h)

theorem mem_alter {α : Type} {m : List (Nat × α)} {k : Nat} {d : α} {f : α → α} {p : Nat × α} (h : p ∈ alter m k d f) :
    (p.1 = k ∧ ∃ x, (x = d ∨ (k, x) ∈ m) ∧ p.2 = f x) ∨ p ∈ m := by
  rcases mem_put h with rfl | h
  · refine .inl ⟨rfl, (m.lookup k).getD d, ?_, rfl⟩
    cases hl : m.lookup k with
    | none => exact .inl rfl
    | some x => exact .inr (lookup_mem hl)
  · exact .inr h

/-- What holds of every update that is read. -/
structure ReadForm (u : Update) : Prop where
  contracts : ∀ p ∈ u.contracts, (p.2.storage ≠ [] ∨ p.2.nonce ≠ none ∨ p.2.cls ≠ none) ∧ (p.2.storage ≠ [] → isSystem p.1 = false)
  system : ∀ p ∈ u.system, isSystem p.1 = true ∧ p.2 ≠ []
  keys : (u.contracts.map (·.1)).Nodup
  storageKeys : ∀ p ∈ u.contracts, (p.2.storage.map (·.1)).Nodup
  systemKeys : (u.system.map (·.1)).Nodup
  systemStorageKeys : ∀ p ∈ u.system, (p.2.map (·.1)).Nodup
  cairo : u.cairo.Nodup
  sierra : (u.sierra.map (·.1)).Nodup
  migrated : (u.migrated.map (·.1)).Nodup

theorem ReadForm.nonce {u : Update} (h : ReadForm u) (a x : Nat) : ReadForm (withNonce u a x) := by
  have mem : ∀ p, p ∈ (withNonce u a x).contracts → p ∈ alter u.contracts a {} fun c => { c with nonce := some x } := fun _ h => h
  refine { h with contracts := ?_, keys := State.put_keys _ _ _ h.keys, storageKeys := ?_ }
  · intro p hp
    rcases mem_alter (mem p hp) with ⟨h1, y, hy, h2⟩ | hp
    · rw [h1, h2]
      refine ⟨.inr (.inl (by simp)), fun hs => ?_⟩
      rcases hy with rfl | hy
      · exact absurd rfl hs
      · exact (h.contracts _ hy).2 hs
    · exact h.contracts p hp
  · intro p hp
    rcases mem_alter (mem p hp) with ⟨h1, y, hy, h2⟩ | hp
    · rw [h2]
      rcases hy with rfl | hy
      · simp
      · exact h.storageKeys _ hy
    · exact h.storageKeys p hp

theorem ReadForm.cls {u : Update} (h : ReadForm u) (a : Nat) (x : State.ClassUpd) : ReadForm (withClass u a x) := by
  have mem : ∀ p, p ∈ (withClass u a x).contracts → p ∈ alter u.contracts a {} fun c => { c with cls := some x } := fun _ h => h
  refine { h with contracts := ?_, keys := State.put_keys _ _ _ h.keys, storageKeys := ?_ }
  · intro p hp
    rcases mem_alter (mem p hp) with ⟨h1, y, hy, h2⟩ | hp
    · rw [h1, h2]
      refine ⟨.inr (.inr (by simp)), fun hs => ?_⟩
      rcases hy with rfl | hy
      · exact absurd rfl hs
      · exact (h.contracts _ hy).2 hs
    · exact h.contracts p hp
  · intro p hp
    rcases mem_alter (mem p hp) with ⟨h1, y, hy, h2⟩ | hp
    · rw [h2]
      rcases hy with rfl | hy
      · simp
      · exact h.storageKeys _ hy
    · exact h.storageKeys p hp

theorem ReadForm.storage {u : Update} (h : ReadForm u) (a k v : Nat) : ReadForm (withStorage u a k v) := by
  unfold withStorage
  cases hs : isSystem a with
  | true =>
    rw [if_pos rfl]
    have mem : ∀ p, p ∈ (({ u with system := alter u.system a [] fun s => put s k v } : Update)).system →
        p ∈ alter u.system a [] fun s => put s k v := fun _ h => h
    refine { h with system := ?_, systemKeys := State.put_keys _ _ _ h.systemKeys, systemStorageKeys := ?_ }
    · intro p hp
      rcases mem_alter (mem p hp) with ⟨h1, y, hy, h2⟩ | hp
      · rw [h1, h2]; exact ⟨hs, put_ne_nil _ _ _⟩
      · exact h.system p hp
    · intro p hp
      rcases mem_alter (mem p hp) with ⟨h1, y, hy, h2⟩ | hp
      · rw [h2]
        apply State.put_keys
        rcases hy with rfl | hy
        · simp
        · exact h.systemStorageKeys _ hy
      · exact h.systemStorageKeys p hp
  | false =>
    rw [if_neg (by simp)]
    have mem : ∀ p, p ∈ (({ u with contracts := alter u.contracts a {} fun c => { c with storage := put c.storage k v } } : Update)).contracts →
        p ∈ alter u.contracts a {} fun c => { c with storage := put c.storage k v } := fun _ h => h
    refine { h with contracts := ?_, keys := State.put_keys _ _ _ h.keys, storageKeys := ?_ }
    · intro p hp
      rcases mem_alter (mem p hp) with ⟨h1, y, hy, h2⟩ | hp
      · rw [h1, h2]; exact ⟨.inl (put_ne_nil _ _ _), fun _ => hs⟩
      · exact h.contracts p hp
    · intro p hp
      rcases mem_alter (mem p hp) with ⟨h1, y, hy, h2⟩ | hp
      · rw [h2]
        apply State.put_keys
        rcases hy with rfl | hy
        · simp
        · exact h.storageKeys _ hy
      · exact h.storageKeys p hp

theorem fold_form {ρ : Type} (f : Update → ρ → Update) (hf : ∀ u r, ReadForm u → ReadForm (f u r)) (l : List ρ) :
    ∀ u, ReadForm u → ReadForm (l.foldl f u) := by
  induction l with
  | nil => intro u h; exact h
  | cons r l ih => intro u h; exact ih _ (hf u r h)

theorem putSet_nodup {s : List Nat} (h : s.Nodup) (x : Nat) : (putSet s x).Nodup := by
  unfold putSet
  split
  · exact h
  · rename_i hc
    have hx : x ∉ s := by simpa using hc
    rw [List.nodup_append]
    refine ⟨h, by simp, ?_⟩
    intro a ha b hb
    simp only [List.mem_singleton] at hb
    subst hb
    intro e
    exact hx (e ▸ ha)

theorem readUpdate_form {db : State.Db} {n : Nat} {u : Update} (h : State.readUpdate db n = some u) : ReadForm u := by
  unfold State.readUpdate at h
  split at h
  · simp only [Option.some.injEq] at h
    subst h
    have h0 : ReadForm {} := by constructor <;> simp
    unfold State.readClasses State.readMigrated State.readRedeclared State.readDeclared State.readStorage State.readNonces
    refine fold_form _ ?_ _ _ (fold_form _ ?_ _ _ (fold_form _ ?_ _ _ (fold_form _ ?_ _ _ (fold_form _ ?_ _ _ (fold_form _ ?_ _ _ h0)))))
    · intro u r h; split
      · exact h.cls _ _
      · exact h
    · intro u r h; split
      · exact { h with migrated := State.put_keys _ _ _ h.migrated }
      · exact h
    · intro u r h; split
      · exact { h with cairo := putSet_nodup h.cairo _ }
      · exact h
    · intro u r h; split
      · split
        · exact { h with sierra := State.put_keys _ _ _ h.sierra }
        · exact { h with cairo := putSet_nodup h.cairo _ }
      · exact h
    · intro u r h; split
      · split
        · exact h.storage _ _ _
        · exact h
      · exact h
    · intro u r h; split
      · split
        · exact h.nonce _ _
        · exact h
      · exact h
  · simp at h

/-! ### The number of changes -/

theorem length_le_of_subset {α : Type} {l m : List α} (hn : l.Nodup) (h : ∀ x ∈ l, x ∈ m) : l.length ≤ m.length := by
  induction l generalizing m with
  | nil => exact Nat.zero_le _
  | cons x l ih =>
    obtain ⟨s, t, rfl⟩ := List.append_of_mem (h x List.mem_cons_self)
    rw [List.nodup_cons] at hn
    have := ih (m := s ++ t) hn.2 fun y hy => by
      have hy' := h y (List.mem_cons_of_mem _ hy)
      simp only [List.mem_append, List.mem_cons] at hy' ⊢
      rcases hy' with h | h | h
      · exact .inl h
      · subst h; exact absurd hy hn.1
      · exact .inr h
    simp only [List.length_append, List.length_cons] at this ⊢
    omega

theorem length_eq_of_mem {α : Type} {l m : List α} (hl : l.Nodup) (hm : m.Nodup) (h : ∀ x, x ∈ l ↔ x ∈ m) : l.length = m.length :=
  Nat.le_antisymm (length_le_of_subset hl fun x hx => (h x).1 hx) (length_le_of_subset hm fun x hx => (h x).2 hx)

/-- The entries of a map of maps. -/
def cells (l : List (Nat × List (Nat × Nat))) : List (Nat × Nat × Nat) := l.flatMap fun p => p.2.map fun kv => (p.1, kv)

theorem nodup_of_keys {α β : Type} {l : List α} (f : α → β) (h : (l.map f).Nodup) : l.Nodup := by
  induction l with
  | nil => simp
  | cons x l ih =>
    simp only [List.map_cons, List.nodup_cons, List.mem_map, not_exists, not_and] at h ⊢
    exact ⟨fun hx => h.1 x hx rfl, ih h.2⟩

theorem cells_nodup {l : List (Nat × List (Nat × Nat))} (h : (l.map (·.1)).Nodup) (h2 : ∀ p ∈ l, (p.2.map (·.1)).Nodup) :
    (cells l).Nodup := by
  induction l with
  | nil => simp [cells]
  | cons p l ih =>
    simp only [List.map_cons, List.nodup_cons] at h
    have ih := ih h.2 fun q hq => h2 q (List.mem_cons_of_mem _ hq)
    unfold cells at ih ⊢
    rw [List.flatMap_cons, List.nodup_append]
    refine ⟨?_, ih, ?_⟩
    · have := nodup_of_keys _ (h2 p List.mem_cons_self)
      clear ih h h2
      generalize p.2 = m at this
      induction m with
      | nil => simp
      | cons x m ih =>
        simp only [List.nodup_cons, List.map_cons, List.mem_map, not_exists, not_and] at this ⊢
        refine ⟨fun y hy e => this.1 ?_, ih this.2⟩
        cases e; exact hy
    · intro a ha b hb e
      subst e
      simp only [List.mem_map, List.mem_flatMap] at ha hb
      obtain ⟨_, _, rfl⟩ := ha
      obtain ⟨q, hq, _, _, e⟩ := hb
      have e := congrArg Prod.fst e
      simp only at e
      rw [← e] at h
      exact h.1 (List.mem_map.2 ⟨q, hq, rfl⟩)

theorem cells_length (l : List (Nat × List (Nat × Nat))) : (cells l).length = (l.map fun p => p.2.length).sum := by
  induction l with
  | nil => rfl
  | cons p l ih => unfold cells at ih ⊢; simp [ih]

theorem mem_cells {l : List (Nat × List (Nat × Nat))} (h : (l.map (·.1)).Nodup) (h2 : ∀ p ∈ l, (p.2.map (·.1)).Nodup) (a k v : Nat) :
    (a, k, v) ∈ cells l ↔ (l.lookup a).bind (·.lookup k) = some v := by
  unfold cells
  simp only [List.mem_flatMap, List.mem_map]
  constructor
  · rintro ⟨p, hp, kv, hkv, e⟩
    cases e
    rw [lookup_of_mem h hp]
    exact lookup_of_mem (h2 p hp) hkv
  · intro hh
    cases hl : l.lookup a with
    | none => simp [hl] at hh
    | some m =>
      simp only [hl, Option.bind_some] at hh
      exact ⟨(a, m), lookup_mem hl, (k, v), lookup_mem hh, rfl⟩

theorem keys_map {α β : Type} (l : List (Nat × α)) (f : α → β) : (l.map fun p => (p.1, f p.2)).map (·.1) = l.map (·.1) := by
  simp [List.map_map, Function.comp_def]

theorem lookup_map {α β : Type} (l : List (Nat × α)) (f : α → β) (a : Nat) : (l.map fun p => (p.1, f p.2)).lookup a = (l.lookup a).map f := by
  induction l with
  | nil => rfl
  | cons p l ih =>
    obtain ⟨b, c⟩ := p
    simp only [List.map_cons, List.lookup_cons]
    cases h : a == b <;> simp [ih]

/-- The entries that have a value. -/
def given {α β : Type} (f : α → Option β) (l : List (Nat × α)) : List (Nat × β) := l.filterMap fun p => (f p.2).map fun x => (p.1, x)

theorem mem_given {α β : Type} (f : α → Option β) {l : List (Nat × α)} (h : (l.map (·.1)).Nodup) (a : Nat) (x : β) :
    (a, x) ∈ given f l ↔ (l.lookup a).bind f = some x := by
  simp only [given, List.mem_filterMap]
  constructor
  · rintro ⟨p, hp, e⟩
    cases hx : f p.2 with
    | none => simp [hx] at e
    | some y =>
      simp only [hx, Option.map_some, Option.some.injEq, Prod.mk.injEq] at e
      obtain ⟨rfl, rfl⟩ := e
      rw [lookup_of_mem h hp]
      exact hx
  · intro hh
    cases hl : l.lookup a with
    | none => simp [hl] at hh
    | some c =>
      simp only [hl, Option.bind_some] at hh
      exact ⟨(a, c), lookup_mem hl, by simp [hh]⟩

theorem given_nodup {α β : Type} (f : α → Option β) {l : List (Nat × α)} (h : (l.map (·.1)).Nodup) : (given f l).Nodup := by
  induction l with
  | nil => simp [given]
  | cons p l ih =>
    simp only [List.map_cons, List.nodup_cons] at h
    have ih := ih h.2
    unfold given at ih ⊢
    rw [List.filterMap_cons]
    cases hx : f p.2 with
    | none => simpa using ih
    | some y =>
      simp only [Option.map_some, List.nodup_cons]
      refine ⟨?_, ih⟩
      intro hm
      simp only [List.mem_filterMap] at hm
      obtain ⟨q, hq, e⟩ := hm
      cases hz : f q.2 with
      | none => simp [hz] at e
      | some z =>
        simp only [hz, Option.map_some, Option.some.injEq, Prod.mk.injEq] at e
        exact h.1 (List.mem_map.2 ⟨q, hq, e.1⟩)

theorem given_length {α β : Type} (f : α → Option β) (l : List (Nat × α)) : (given f l).length = (l.map fun p => (f p.2).isSome.toNat).sum := by
  induction l with
  | nil => rfl
  | cons p l ih =>
    unfold given at ih ⊢
    rw [List.filterMap_cons]
    cases hx : f p.2 <;> simp [hx, ih]
    omega

/-- The distinct keys of a map. -/
structure Keyed (u : Update) : Prop where
  contracts : (u.contracts.map (·.1)).Nodup
  storage : ∀ p ∈ u.contracts, (p.2.storage.map (·.1)).Nodup
  system : (u.system.map (·.1)).Nodup
  systemStorage : ∀ p ∈ u.system, (p.2.map (·.1)).Nodup
  cairo : u.cairo.Nodup
  sierra : (u.sierra.map (·.1)).Nodup
  migrated : (u.migrated.map (·.1)).Nodup

theorem sum_add {α : Type} (l : List α) (f g : α → Nat) : (l.map fun x => f x + g x).sum = (l.map f).sum + (l.map g).sum := by
  induction l with
  | nil => rfl
  | cons x l ih => simp [ih]; omega

theorem length_parts (u : Update) : Diff.lengthUpdate (toSU u) =
    (cells (u.contracts.map fun p => (p.1, p.2.storage))).length + (given (·.nonce) u.contracts).length +
      (given (·.cls) u.contracts).length + (cells u.system).length + u.cairo.length + u.sierra.length + u.migrated.length := by
  simp only [cells_length, given_length]
  unfold Diff.lengthUpdate Diff.contractsLength Diff.systemLength toSU
  simp only [List.map_map, Function.comp_def, Option.isSome_map, sum_add]
  have e1 : (u.contracts.map fun x => x.2.nonce.isSome.toNat).sum = (u.contracts.map fun p => ((fun (c : ContractUpd) => c.nonce) p.2).isSome.toNat).sum := rfl
  have e2 : (u.contracts.map fun x => x.2.cls.isSome.toNat).sum = (u.contracts.map fun p => ((fun (c : ContractUpd) => c.cls) p.2).isSome.toNat).sum := rfl
  rw [← e1, ← e2]
  omega

theorem length_same {u w : Update} (hu : Keyed u) (hw : Keyed w) (h : u.Same w) :
    Diff.lengthUpdate (toSU u) = Diff.lengthUpdate (toSU w) := by
  have kc : ∀ {u : Update}, Keyed u → ((u.contracts.map fun p => (p.1, p.2.storage)).map (·.1)).Nodup := by
    intro u h; rw [keys_map]; exact h.contracts
  have ks : ∀ {u : Update}, Keyed u → ∀ p ∈ u.contracts.map (fun p => (p.1, p.2.storage)), (p.2.map (·.1)).Nodup := by
    intro u h p hp
    obtain ⟨q, hq, rfl⟩ := List.mem_map.1 hp
    exact h.storage q hq
  have mems : ∀ {l m : List (Nat × Nat)}, (l.map (·.1)).Nodup → (m.map (·.1)).Nodup → (∀ h, l.lookup h = m.lookup h) →
      l.length = m.length := by
    intro l m hl hm he
    refine length_eq_of_mem (nodup_of_keys _ hl) (nodup_of_keys _ hm) fun x => ?_
    constructor
    · intro hx; exact lookup_mem (he x.1 ▸ lookup_of_mem hl hx)
    · intro hx; exact lookup_mem ((he x.1).symm ▸ lookup_of_mem hm hx)
  have e1 : (cells (u.contracts.map fun p => (p.1, p.2.storage))).length = (cells (w.contracts.map fun p => (p.1, p.2.storage))).length := by
    refine length_eq_of_mem (cells_nodup (kc hu) (ks hu)) (cells_nodup (kc hw) (ks hw)) fun x => ?_
    obtain ⟨a, k, v⟩ := x
    have he := h.storage a k
    unfold State.Update.contractStorage at he
    have hb : ∀ u : Update, ((u.contracts.map fun p => (p.1, p.2.storage)).lookup a).bind (·.lookup k) =
        (u.contracts.lookup a).bind (·.storage.lookup k) := by
      intro u; rw [lookup_map]; cases u.contracts.lookup a <;> rfl
    rw [mem_cells (kc hu) (ks hu), mem_cells (kc hw) (ks hw), hb, hb, he]
  have e2 : (given (·.nonce) u.contracts).length = (given (·.nonce) w.contracts).length := by
    refine length_eq_of_mem (given_nodup _ hu.contracts) (given_nodup _ hw.contracts) fun x => ?_
    obtain ⟨a, y⟩ := x
    rw [mem_given _ hu.contracts, mem_given _ hw.contracts]
    have := h.nonce a
    unfold State.Update.nonceOf at this
    rw [this]
  have e3 : (given (·.cls) u.contracts).length = (given (·.cls) w.contracts).length := by
    refine length_eq_of_mem (given_nodup _ hu.contracts) (given_nodup _ hw.contracts) fun x => ?_
    obtain ⟨a, y⟩ := x
    rw [mem_given _ hu.contracts, mem_given _ hw.contracts]
    have := h.cls a
    unfold State.Update.classUpdOf at this
    rw [this]
  have e4 : (cells u.system).length = (cells w.system).length := by
    refine length_eq_of_mem (cells_nodup hu.system hu.systemStorage) (cells_nodup hw.system hw.systemStorage) fun x => ?_
    obtain ⟨a, k, v⟩ := x
    have := h.system a k
    unfold State.Update.systemStorage at this
    rw [mem_cells hu.system hu.systemStorage, mem_cells hw.system hw.systemStorage, this]
  have e5 : u.cairo.length = w.cairo.length := length_eq_of_mem hu.cairo hw.cairo h.cairo
  have e6 : u.sierra.length = w.sierra.length := mems hu.sierra hw.sierra h.sierra
  have e7 : u.migrated.length = w.migrated.length := mems hu.migrated hw.migrated h.migrated
  rw [length_parts, length_parts, e1, e2, e3, e4, e5, e6, e7]

theorem ReadForm.keyed {u : Update} (h : ReadForm u) : Keyed u :=
  ⟨h.keys, h.storageKeys, h.systemKeys, h.systemStorageKeys, h.cairo, h.sierra, h.migrated⟩

theorem wf_keyed {u : Update} (h : u.WF) : Keyed u :=
  ⟨h.contracts, h.storage, h.system, h.systemStorage, h.cairo, h.sierra, h.migrated⟩

/-- What is read of an update is tidy. -/
theorem read_tidy {w u : Update} (hw : ReadForm w) (hu : u.WF) (h : w.Same u) : Tidy w := by
  refine ⟨fun p hp => ⟨?_, (hw.contracts p hp).1⟩, hw.system⟩
  obtain ⟨h1, h2⟩ := hw.contracts p hp
  have hl : w.contracts.lookup p.1 = some p.2 := lookup_of_mem hw.keys hp
  have inU : u.contracts.lookup p.1 ≠ none → isSystem p.1 = false := by
    intro hne
    cases hlu : u.contracts.lookup p.1 with
    | none => exact absurd hlu hne
    | some c => exact hu.notSystem (p.1, c) (lookup_mem hlu)
  rcases h1 with h1 | h1 | h1
  · exact h2 h1
  · apply inU
    have := h.nonce p.1
    unfold State.Update.nonceOf at this
    rw [hl] at this
    intro e
    rw [e] at this
    exact h1 this
  · apply inU
    have := h.cls p.1
    unfold State.Update.classUpdOf at this
    rw [hl] at this
    intro e
    rw [e] at this
    exact h1 this

/-- `Carries` depends on what the update says only. -/
theorem carries_same {a : DiffAcc} {w u : Update} (hw : Keyed w) (hu : Keyed u) (h : w.Same u) (hc : Carries a w) : Carries a u := by
  have sto : ∀ {u : Update}, Keyed u → ∀ x k v, (∃ c, (x, c) ∈ u.contracts ∧ (k, v) ∈ c.storage) ↔ u.contractStorage x k = some v := by
    intro u hu x k v
    unfold State.Update.contractStorage
    constructor
    · rintro ⟨c, h1, h2⟩
      rw [lookup_of_mem hu.contracts h1]
      exact lookup_of_mem (hu.storage _ h1) h2
    · intro hh
      cases hl : u.contracts.lookup x with
      | none => simp [hl] at hh
      | some c => simp only [hl, Option.bind_some] at hh; exact ⟨c, lookup_mem hl, lookup_mem hh⟩
  have sys : ∀ {u : Update}, Keyed u → ∀ x k v, (∃ c, (x, c) ∈ u.system ∧ (k, v) ∈ c) ↔ u.systemStorage x k = some v := by
    intro u hu x k v
    unfold State.Update.systemStorage
    constructor
    · rintro ⟨c, h1, h2⟩
      rw [lookup_of_mem hu.system h1]
      exact lookup_of_mem (hu.systemStorage _ h1) h2
    · intro hh
      cases hl : u.system.lookup x with
      | none => simp [hl] at hh
      | some c => simp only [hl, Option.bind_some] at hh; exact ⟨c, lookup_mem hl, lookup_mem hh⟩
  constructor
  · intro x k v
    rw [hc.storage, sto hw, sto hu, sys hw, sys hu, h.storage, h.system]
  · intro x n
    rw [hc.nonces]
    have e : ∀ {u : Update}, Keyed u → ((∃ c, (x, c) ∈ u.contracts ∧ c.nonce = some n) ↔ u.nonceOf x = some n) := by
      intro u hu
      unfold State.Update.nonceOf
      constructor
      · rintro ⟨c, h1, h2⟩; rw [lookup_of_mem hu.contracts h1]; exact h2
      · intro hh
        cases hl : u.contracts.lookup x with
        | none => simp [hl] at hh
        | some c => simp only [hl, Option.bind_some] at hh; exact ⟨c, lookup_mem hl, hh⟩
    rw [e hw, e hu, h.nonce]
  · intro x hh
    rw [hc.classes]
    have e : ∀ {u : Update}, Keyed u → ((∃ c k, (x, c) ∈ u.contracts ∧ c.cls = some k ∧ k.hash = hh) ↔ u.classOf x = some hh) := by
      intro u hu
      unfold State.Update.classOf State.Update.classUpdOf
      constructor
      · rintro ⟨c, k, h1, h2, rfl⟩; rw [lookup_of_mem hu.contracts h1]; simp [h2]
      · intro he
        cases hl : u.contracts.lookup x with
        | none => simp [hl] at he
        | some c =>
          simp only [hl, Option.bind_some] at he
          cases hk : c.cls with
          | none => simp [hk] at he
          | some k => simp only [hk, Option.map_some, Option.some.injEq] at he; exact ⟨c, k, lookup_mem hl, hk, he⟩
    rw [e hw, e hu, h.classHash]
  · intro p
    rw [hc.sierra]
    constructor
    · intro hp; exact lookup_mem (h.sierra p.1 ▸ lookup_of_mem hw.sierra hp)
    · intro hp; exact lookup_mem ((h.sierra p.1).symm ▸ lookup_of_mem hu.sierra hp)
  · intro x
    rw [hc.cairo, h.cairo]

end Verif.Serve
