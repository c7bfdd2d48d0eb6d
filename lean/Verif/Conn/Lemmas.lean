import Verif.Conn.Attack
/-! # Lemmas on the records and the behaviour -/

namespace Verif.Conn

variable {cfg : Cfg}

/-- The keys of the records. -/
abbrev keys (ps : Peers) : List Nat := ps.map (·.1)

theorem get_nil (i : Nat) : get [] i = none := rfl

theorem get_cons (e : Nat × Peer) (ps : Peers) (i : Nat) :
    get (e :: ps) i = if e.1 = i then some e.2 else get ps i := by
  unfold get
  rw [List.find?_cons]
  by_cases h : e.1 = i
  · simp [h]
  · have : (e.1 == i) = false := by simpa using h
    simp [h, this]

theorem get_mem {ps : Peers} {i : Nat} {p : Peer} (h : get ps i = some p) : (i, p) ∈ ps := by
  induction ps with
  | nil => cases h
  | cons e ps ih =>
    rw [get_cons] at h
    split at h
    · rename_i he
      cases h
      subst he
      exact List.mem_cons_self
    · exact List.mem_cons_of_mem _ (ih h)

theorem mem_get {ps : Peers} (hn : (keys ps).Nodup) {i : Nat} {p : Peer} (h : (i, p) ∈ ps) :
    get ps i = some p := by
  induction ps with
  | nil => cases h
  | cons e ps ih =>
    simp only [keys, List.map_cons, List.nodup_cons] at hn
    rw [get_cons]
    rcases List.mem_cons.1 h with rfl | h'
    · simp
    · have : e.1 ≠ i := fun he => hn.1 (he ▸ List.mem_map_of_mem (f := (·.1)) h')
      rw [if_neg this]
      exact ih hn.2 h'

theorem get_none {ps : Peers} {i : Nat} : get ps i = none ↔ i ∉ keys ps := by
  induction ps with
  | nil => simp [get_nil]
  | cons e ps ih =>
    rw [get_cons]
    simp only [keys, List.map_cons, List.mem_cons, not_or]
    by_cases h : e.1 = i
    · simp [h]
    · rw [if_neg h, ih]
      constructor
      · intro h2; exact ⟨fun h3 => h h3.symm, h2⟩
      · exact fun h2 => h2.2

theorem keys_modify (ps : Peers) (id : Nat) (f : Peer → Peer) : keys (modify ps id f) = keys ps := by
  unfold keys modify
  rw [List.map_map]
  congr 1
  funext e
  simp only [Function.comp]
  split <;> rfl

theorem get_modify (ps : Peers) (id : Nat) (f : Peer → Peer) (i : Nat) :
    get (modify ps id f) i = if i = id then (get ps i).map f else get ps i := by
  induction ps with
  | nil => simp [modify, get_nil]
  | cons e ps ih =>
    have hm : modify (e :: ps) id f = (if e.1 = id then (e.1, f e.2) else e) :: modify ps id f := rfl
    rw [hm, get_cons, get_cons, ih]
    by_cases h1 : e.1 = id
    · by_cases h2 : i = id
      · subst h2; simp [h1]
      · have : ¬ e.1 = i := fun h => h2 (h ▸ h1)
        have h3 : ¬ id = i := fun h => h2 h.symm
        simp [h1, h2, h3]
    · by_cases h2 : e.1 = i
      · have : ¬ i = id := fun h => h1 (h2.trans h)
        simp [h2, this]
      · simp [h1, h2]

theorem get_filter {ps : Peers} (hn : (keys ps).Nodup) (q : Peer → Bool) (i : Nat) :
    get (ps.filter fun e => q e.2) i = (get ps i).filter q := by
  induction ps with
  | nil => rfl
  | cons e ps ih =>
    simp only [keys, List.map_cons, List.nodup_cons] at hn
    rw [List.filter_cons, get_cons]
    by_cases h1 : e.1 = i
    · have hnone : get ps i = none := get_none.2 (h1 ▸ hn.1)
      by_cases h2 : q e.2
      · simp [h2, get_cons, h1, Option.filter]
      · rw [if_neg h2, ih hn.2, hnone]
        simp [h1, h2, Option.filter]
    · by_cases h2 : q e.2
      · rw [if_pos h2, get_cons, if_neg h1, ih hn.2, if_neg h1]
      · rw [if_neg h2, ih hn.2, if_neg h1]

theorem get_append {ps : Peers} {e : Nat × Peer} (i : Nat) :
    get (ps ++ [e]) i = (get ps i).or (if e.1 = i then some e.2 else none) := by
  induction ps with
  | nil => rw [List.nil_append, get_cons, get_nil]; simp
  | cons x xs ih =>
    rw [List.cons_append, get_cons, get_cons, ih]
    split <;> simp

theorem get_iter {ps : Peers} (hn : (keys ps).Nodup) (now i : Nat) :
    get (iter cfg now ps) i = (get ps i).filter fun p => !stale cfg now p :=
  get_filter hn (fun p => !stale cfg now p) i

theorem keys_iter {ps : Peers} (hn : (keys ps).Nodup) (now : Nat) : (keys (iter cfg now ps)).Nodup :=
  hn.sublist ((List.filter_sublist).map _)

theorem get_upsert {ps : Peers} (hn : (keys ps).Nodup) (now id : Nat) (f : Peer → Peer) (new : Peer)
    (i : Nat) :
    get (upsert cfg now ps id f new) i =
      if i = id then some (match (get ps id).filter (fun p => !stale cfg now p) with
        | some p => f p
        | none => new)
      else (get ps i).filter fun p => !stale cfg now p := by
  unfold upsert
  simp only [get_iter hn]
  by_cases h : i = id
  · subst h
    rw [if_pos rfl]
    cases hg : (get ps i).filter (fun p => !stale cfg now p) with
    | none =>
      simp only [Option.isSome_none, Bool.false_eq_true, if_false]
      rw [get_append, get_iter hn, hg]
      simp
    | some p =>
      simp only [Option.isSome_some, if_true]
      rw [get_modify, if_pos rfl, get_iter hn, hg]
      rfl
  · rw [if_neg h]
    split
    · rw [get_modify, if_neg h, get_iter hn]
    · rw [get_append, get_iter hn]
      have : ¬ id = i := fun e => h e.symm
      simp [this]

theorem keys_upsert {ps : Peers} (hn : (keys ps).Nodup) (now id : Nat) (f : Peer → Peer) (new : Peer) :
    (keys (upsert cfg now ps id f new)).Nodup := by
  have hk := keys_iter (cfg := cfg) hn now
  unfold upsert
  simp only
  split
  · rw [keys_modify]; exact hk
  · rename_i h
    have hnone : get (iter cfg now ps) id = none := by
      cases hg : get (iter cfg now ps) id with
      | none => rfl
      | some p => rw [hg] at h; simp at h
    unfold keys at *
    rw [List.map_append]
    refine List.nodup_append.2 ⟨hk, by simp, ?_⟩
    intro a ha b hb
    simp only [List.map_cons, List.map_nil, List.mem_singleton] at hb
    subst hb
    intro e
    subst e
    exact get_none.1 hnone ha

theorem get_update {ps ps' : Peers} (hn : (keys ps).Nodup) {now id : Nat} {f : Peer → Peer}
    (h : update cfg now ps id f = some ps') (i : Nat) :
    get ps' i = ((get ps i).filter fun p => !stale cfg now p).map fun p => if i = id then f p else p := by
  unfold update at h
  simp only at h
  split at h
  · cases h
    rw [get_modify, get_iter hn]
    by_cases hi : i = id
    · simp [hi]
    · rw [if_neg hi]
      simp [hi]
  · cases h

theorem keys_update {ps ps' : Peers} (hn : (keys ps).Nodup) {now id : Nat} {f : Peer → Peer}
    (h : update cfg now ps id f = some ps') : (keys ps').Nodup := by
  unfold update at h
  simp only at h
  split at h
  · cases h
    rw [keys_modify]
    exact keys_iter hn now
  · cases h

theorem update_isSome {ps : Peers} (hn : (keys ps).Nodup) {now id : Nat} {f : Peer → Peer} {p : Peer}
    (h : get ps id = some p) (hs : stale cfg now p = false) :
    ∃ ps', update cfg now ps id f = some ps' := by
  refine ⟨modify (iter cfg now ps) id f, ?_⟩
  unfold update
  simp only
  rw [if_pos]
  rw [get_iter hn, h]
  simp [Option.filter, hs]

theorem connected_fresh {now : Nat} {p : Peer} (h : p.isConnected = true) : stale cfg now p = false := by
  unfold Peer.isConnected at h
  unfold stale
  split at h <;> simp_all

theorem get_perm {ps qs : Peers} (hn : (keys ps).Nodup) (h : qs.Perm ps) (i : Nat) :
    get qs i = get ps i := by
  have hq : (keys qs).Nodup := ((h.map _).nodup_iff).2 hn
  cases hg : get ps i with
  | none =>
    refine get_none.2 ?_
    intro hm
    exact get_none.1 hg ((h.map (·.1)).mem_iff.1 hm)
  | some p => exact mem_get hq (h.mem_iff.2 (get_mem hg))

/-! ## Counting -/

/-- How many records satisfy `q`. -/
def cnt (q : Peer → Bool) (ps : Peers) : Nat := (ps.filter fun e => q e.2).length

theorem cnt_iter {q : Peer → Bool} (hq : ∀ p, q p = true → p.isConnected = true) (now : Nat) (ps : Peers) :
    cnt q (iter cfg now ps) = cnt q ps := by
  unfold cnt iter
  rw [List.filter_filter]
  congr 1
  refine List.filter_congr ?_
  intro e _
  cases h : q e.2 with
  | false => rfl
  | true => simp [connected_fresh (hq _ h)]

theorem cnt_keys (q : Peer → Bool) (ps : Peers) : cnt q ps = (keys (ps.filter fun e => q e.2)).length := by
  unfold cnt keys
  rw [List.length_map]

theorem mem_keys_filter {ps : Peers} (hn : (keys ps).Nodup) {q : Peer → Bool} {i : Nat} :
    i ∈ keys (ps.filter fun e => q e.2) ↔ ∃ p, get ps i = some p ∧ q p = true := by
  constructor
  · intro h
    obtain ⟨⟨j, p⟩, he, rfl⟩ := List.mem_map.1 h
    have := List.mem_filter.1 he
    exact ⟨p, mem_get hn this.1, this.2⟩
  · rintro ⟨p, hp, hq⟩
    exact List.mem_map.2 ⟨(i, p), List.mem_filter.2 ⟨get_mem hp, hq⟩, rfl⟩

theorem keys_filter_nodup {ps : Peers} (hn : (keys ps).Nodup) (q : Peer → Bool) :
    (keys (ps.filter fun e => q e.2)).Nodup :=
  hn.sublist ((List.filter_sublist).map _)

/-- Fewer records satisfy `q` if each that does did before. -/
theorem cnt_mono {ps qs : Peers} (hp : (keys ps).Nodup) (hq : (keys qs).Nodup) {q : Peer → Bool}
    (h : ∀ i p', get qs i = some p' → q p' = true → ∃ p, get ps i = some p ∧ q p = true) :
    cnt q qs ≤ cnt q ps := by
  rw [cnt_keys, cnt_keys]
  refine List.Nodup.length_le_of_subset (keys_filter_nodup hq q) ?_
  intro i hi
  obtain ⟨p', h1, h2⟩ := (mem_keys_filter hq).1 hi
  exact (mem_keys_filter hp).2 (h i p' h1 h2)

/-- One less if one of them no longer does. -/
theorem cnt_lt {ps qs : Peers} (hp : (keys ps).Nodup) (hq : (keys qs).Nodup) {q : Peer → Bool}
    (h : ∀ i p', get qs i = some p' → q p' = true → ∃ p, get ps i = some p ∧ q p = true)
    {j : Nat} {p : Peer} (hj : get ps j = some p) (hjq : q p = true)
    (hn : ∀ p', get qs j = some p' → q p' = false) : cnt q qs + 1 ≤ cnt q ps := by
  rw [cnt_keys, cnt_keys]
  have : (j :: keys (qs.filter fun e => q e.2)).length ≤ (keys (ps.filter fun e => q e.2)).length := by
    refine List.Nodup.length_le_of_subset ?_ ?_
    · refine List.nodup_cons.2 ⟨?_, keys_filter_nodup hq q⟩
      intro hm
      obtain ⟨p', h1, h2⟩ := (mem_keys_filter hq).1 hm
      rw [hn p' h1] at h2
      cases h2
    · intro i hi
      rcases List.mem_cons.1 hi with rfl | hi
      · exact (mem_keys_filter hp).2 ⟨p, hj, hjq⟩
      · obtain ⟨p', h1, h2⟩ := (mem_keys_filter hq).1 hi
        exact (mem_keys_filter hp).2 (h i p' h1 h2)
  simpa using this

/-- At most one more if only one record may be new among them. -/
theorem cnt_succ {ps qs : Peers} (hp : (keys ps).Nodup) (hq : (keys qs).Nodup) {q : Peer → Bool} {j : Nat}
    (h : ∀ i p', i ≠ j → get qs i = some p' → q p' = true → ∃ p, get ps i = some p ∧ q p = true) :
    cnt q qs ≤ cnt q ps + 1 := by
  rw [cnt_keys, cnt_keys]
  have : (keys (qs.filter fun e => q e.2)).length ≤ (j :: keys (ps.filter fun e => q e.2)).length := by
    refine List.Nodup.length_le_of_subset (keys_filter_nodup hq q) ?_
    intro i hi
    by_cases e : i = j
    · subst e; exact List.mem_cons_self
    · obtain ⟨p', h1, h2⟩ := (mem_keys_filter hq).1 hi
      exact List.mem_cons_of_mem _ ((mem_keys_filter hp).2 (h i p' e h1 h2))
  simpa using this

end Verif.Conn
