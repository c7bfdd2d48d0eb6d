/-!
# The event filter of a subscription

An event subscription filters twice with different code: events of old blocks when they are read from the database, and
events of new blocks as they are announced.  Addresses and keys are `Nat`s here.
-/

namespace Verif.Subs

/-- An event: the contract that emitted it and its keys. -/
structure Ev where
  src : Nat
  keys : List Nat

/-- Dropping empty key lists from the end (`subscribe_events.rs` 262-267 and `storage/src/connection/event.rs` 172-175):
`rposition` of the last non-empty list, then `truncate`; no change if all are empty. -/
def truncateKeys (keys : List (List Nat)) : List (List Nat) :=
  let kept := (keys.reverse.dropWhile List.isEmpty).reverse
  if kept.isEmpty then keys else kept

/-- `Params::matches` (`subscribe_events.rs` 30-52), for announced blocks; `keys` after `truncateKeys`, `none` when the
client gave none. -/
def liveMatches (addrs : List Nat) (keys : Option (List (List Nat))) (e : Ev) : Bool :=
  if !addrs.isEmpty && !addrs.contains e.src then false
  else match keys with
    | none => true
    | some ks =>
      if ks.flatten.length = 0 then true
      else if e.keys.length < ks.length then false
      else (e.keys.zip ks).all fun p => p.2.isEmpty || p.2.contains p.1

/-- The filters of `events_in_range` (`storage/src/connection/event.rs` 190-240), for stored blocks; a client that gave
no keys is as one with an empty list (`subscribe_events.rs` 211). -/
def storedMatches (addrs : List Nat) (keys : List (List Nat)) (e : Ev) : Bool :=
  (if addrs.isEmpty then true else addrs.contains e.src) &&
    (if keys.flatten.length = 0 then true
     else if e.keys.length < keys.length then false
     else (e.keys.zip keys).all fun p => p.2.isEmpty || p.2.contains p.1)

/-- What the API says: no addresses given or the emitter is one of them; and at each position with a non-empty list
there is a key and it is in the list. -/
def Asked (addrs : List Nat) (keys : List (List Nat)) (e : Ev) : Prop :=
  (addrs = [] ∨ e.src ∈ addrs) ∧ ∀ (i : Nat) (f : List Nat), keys[i]? = some f → f ≠ [] → ∃ k, e.keys[i]? = some k ∧ k ∈ f

/-- The key part of both filters. -/
def keysPass (ks : List (List Nat)) (keys : List Nat) : Bool :=
  if ks.flatten.length = 0 then true
  else if keys.length < ks.length then false
  else (keys.zip ks).all fun p => p.2.isEmpty || p.2.contains p.1

theorem truncate_split (ks : List (List Nat)) : ∃ tail, ks = truncateKeys ks ++ tail ∧ (∀ f ∈ tail, f = []) ∧
    ((∀ f ∈ ks, f = []) ∨ ∃ init f, truncateKeys ks = init ++ [f] ∧ f ≠ []) := by
  by_cases h : ((ks.reverse.dropWhile List.isEmpty).reverse).isEmpty
  · refine ⟨[], ?_, fun f hf => absurd hf List.not_mem_nil, Or.inl ?_⟩
    · simp [truncateKeys, h]
    · have h' : ks.reverse.dropWhile List.isEmpty = [] := by simpa using h
      intro f hf
      have := List.takeWhile_append_dropWhile (p := List.isEmpty) (l := ks.reverse)
      rw [h', List.append_nil] at this
      have hm : f ∈ ks.reverse.takeWhile List.isEmpty := by
        rw [this]
        exact List.mem_reverse.2 hf
      simpa using List.all_eq_true.1 (List.all_takeWhile (p := List.isEmpty) (l := ks.reverse)) f hm
  · have e : truncateKeys ks = (ks.reverse.dropWhile List.isEmpty).reverse := by simp [truncateKeys, h]
    refine ⟨(ks.reverse.takeWhile List.isEmpty).reverse, ?_, ?_, Or.inr ?_⟩
    · rw [e, ← List.reverse_append, List.takeWhile_append_dropWhile, List.reverse_reverse]
    · intro f hf
      simpa using List.all_eq_true.1 (List.all_takeWhile (p := List.isEmpty) (l := ks.reverse)) f (List.mem_reverse.1 hf)
    · cases hd : ks.reverse.dropWhile List.isEmpty with
      | nil => simp [hd] at h
      | cons f rest =>
        refine ⟨rest.reverse, f, ?_, ?_⟩
        · rw [e, hd, List.reverse_cons]
        · intro hf
          have := List.head?_dropWhile_not List.isEmpty ks.reverse
          rw [hd] at this
          simp [hf] at this

theorem zip_pass (ks : List (List Nat)) (keys : List Nat) (h : ks.length ≤ keys.length) :
    ((keys.zip ks).all fun p => p.2.isEmpty || p.2.contains p.1) = true ↔
      ∀ (i : Nat) (f : List Nat), ks[i]? = some f → f ≠ [] → ∃ k, keys[i]? = some k ∧ k ∈ f := by
  rw [List.all_eq_true]
  constructor
  · intro hall i f hi hf
    have hlt : i < ks.length := (List.getElem?_eq_some_iff.1 hi).1
    have hlt' : i < keys.length := by omega
    have hm : (keys[i], f) ∈ keys.zip ks := by
      apply List.mem_iff_getElem?.2
      refine ⟨i, ?_⟩
      rw [List.getElem?_zip_eq_some]
      exact ⟨List.getElem?_eq_getElem hlt', hi⟩
    refine ⟨keys[i], List.getElem?_eq_getElem hlt', ?_⟩
    have := hall _ hm
    simp only [Bool.or_eq_true, List.isEmpty_iff, List.contains_iff_mem] at this
    exact this.resolve_left hf
  · intro hall p hp
    obtain ⟨i, hi⟩ := List.mem_iff_getElem?.1 hp
    rw [List.getElem?_zip_eq_some] at hi
    simp only [Bool.or_eq_true, List.isEmpty_iff, List.contains_iff_mem]
    by_cases hf : p.2 = []
    · exact Or.inl hf
    · obtain ⟨k, hk, hin⟩ := hall i p.2 hi.2 hf
      rw [hi.1] at hk
      cases hk
      exact Or.inr hin

theorem keysPass_iff (ks : List (List Nat)) (keys : List Nat) : keysPass (truncateKeys ks) keys = true ↔
    ∀ (i : Nat) (f : List Nat), ks[i]? = some f → f ≠ [] → ∃ k, keys[i]? = some k ∧ k ∈ f := by
  obtain ⟨tail, hks, htail, hcase⟩ := truncate_split ks
  rcases hcase with hall | ⟨ini, g, hini, hg⟩
  · have h0 : (truncateKeys ks).flatten.length = 0 := by
      have : ∀ f ∈ truncateKeys ks, f = [] := by
        intro f hf
        apply hall f
        rw [hks]
        exact List.mem_append_left _ hf
      rw [List.length_eq_zero_iff, List.flatten_eq_nil_iff]
      exact this
    refine ⟨fun _ i f hi hf => absurd (hall f (List.mem_of_getElem? hi)) hf, fun _ => ?_⟩
    unfold keysPass
    rw [if_pos h0]
  · have hne : ¬ (truncateKeys ks).flatten.length = 0 := by
      rw [hini, List.flatten_append, List.length_append]
      cases g with
      | nil => exact absurd rfl hg
      | cons x xs => simp
    have hlast : ks[ini.length]? = some g := by
      rw [hks, hini]
      simp
    have hsame : (∀ (i : Nat) (f : List Nat), (truncateKeys ks)[i]? = some f → f ≠ [] → ∃ k, keys[i]? = some k ∧ k ∈ f) ↔
        ∀ (i : Nat) (f : List Nat), ks[i]? = some f → f ≠ [] → ∃ k, keys[i]? = some k ∧ k ∈ f := by
      constructor
      · intro h i f hi hf
        apply h i f _ hf
        rw [hks] at hi
        by_cases hlt : i < (truncateKeys ks).length
        · rwa [List.getElem?_append_left hlt] at hi
        · rw [List.getElem?_append_right (Nat.le_of_not_lt hlt)] at hi
          exact absurd (htail f (List.mem_of_getElem? hi)) hf
      · intro h i f hi hf
        apply h i f _ hf
        rw [hks, List.getElem?_append_left (List.getElem?_eq_some_iff.1 hi).1]
        exact hi
    unfold keysPass
    rw [if_neg hne]
    by_cases hlen : keys.length < (truncateKeys ks).length
    · rw [if_pos hlen]
      refine ⟨fun h => (by cases h), fun h => ?_⟩
      obtain ⟨k, hk, _⟩ := h ini.length g hlast hg
      have := (List.getElem?_eq_some_iff.1 hk).1
      rw [hini] at hlen
      simp at hlen
      omega
    · rw [if_neg hlen, zip_pass _ _ (Nat.le_of_not_lt hlen), hsame]

/-- **Old and new blocks are filtered alike, as asked**: what the database filter passes, what the filter for announced
blocks passes, and what the client asked for are the same events. -/
theorem C82_filter (addrs : List Nat) (keys : Option (List (List Nat))) (e : Ev) :
    (liveMatches addrs (keys.map truncateKeys) e = true ↔ Asked addrs (keys.getD []) e) ∧
      (storedMatches addrs (truncateKeys (keys.getD [])) e = true ↔ Asked addrs (keys.getD []) e) := by
  have hst : storedMatches addrs (truncateKeys (keys.getD [])) e = true ↔ Asked addrs (keys.getD []) e := by
    have h1 : storedMatches addrs (truncateKeys (keys.getD [])) e =
        ((if addrs.isEmpty then true else addrs.contains e.src) && keysPass (truncateKeys (keys.getD [])) e.keys) := rfl
    rw [h1, Bool.and_eq_true, keysPass_iff]
    unfold Asked
    cases addrs <;> simp
  refine ⟨?_, hst⟩
  rw [← hst]
  have h1 : storedMatches addrs (truncateKeys (keys.getD [])) e =
      ((if addrs.isEmpty then true else addrs.contains e.src) && keysPass (truncateKeys (keys.getD [])) e.keys) := rfl
  have h2 : liveMatches addrs (keys.map truncateKeys) e =
      if !addrs.isEmpty && !addrs.contains e.src then false else (keys.map truncateKeys).elim true fun ks => keysPass ks e.keys := by
    cases keys <;> rfl
  have h3 : keysPass (truncateKeys []) e.keys = true := rfl
  rw [h1, h2]
  cases keys <;> cases addrs <;> simp [h3]

/-- A filter with a gap and a trailing empty list, an event it passes and one it does not. -/
example : liveMatches [5] ((some [[], [7, 8], []]).map truncateKeys) ⟨5, [1, 8]⟩ = true ∧
    liveMatches [5] ((some [[], [7, 8], []]).map truncateKeys) ⟨5, [8, 1]⟩ = false ∧
    Asked [5] [[], [7, 8], []] ⟨5, [1, 8]⟩ := by
  refine ⟨by decide, by decide, ?_⟩
  have := (C82_filter [5] (some [[], [7, 8], []]) ⟨5, [1, 8]⟩).1.1 (by decide)
  exact this

end Verif.Subs
