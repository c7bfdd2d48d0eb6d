import Verif.Cons.NodeSpec
import Verif.Cons.WalLemmas
/-! # Invariants of the engines across decisions, pruning and restarts -/
namespace Verif.Cons

variable {V A S : Type}

/-! ### Lemmas -/

theorem Done.mono {d d' : List Nat} {c c' : Option Nat} {h : Nat} (hd : d ⊆ d') (hc : ∀ x, c = some x → ∃ y, c' = some y ∧ x ≤ y)
    (H : Done d c h) : Done d' c' h := by
  rcases H with H | ⟨x, hx, hle⟩
  · exact .inl (hd H)
  · obtain ⟨y, hy, hxy⟩ := hc x hx
    exact .inr ⟨y, hy, by omega⟩

theorem mem_putEngine {h : Nat} {f : Bool} {l : List (Nat × Bool)} {x : Nat × Bool} :
    x ∈ putEngine h f l ↔ x = (h, f) ∨ (x ∈ l ∧ x.1 ≠ h) := by
  simp [putEngine]

theorem key_putEngine {h : Nat} {f : Bool} {l : List (Nat × Bool)} {k : Nat} :
    (∃ e ∈ putEngine h f l, e.1 = k) ↔ k = h ∨ ∃ e ∈ l, e.1 = k := by
  constructor
  · rintro ⟨e, he, rfl⟩
    rcases mem_putEngine.1 he with rfl | ⟨he, _⟩
    · exact .inl rfl
    · exact .inr ⟨e, he, rfl⟩
  · rintro (rfl | ⟨e, he, rfl⟩)
    · exact ⟨(k, f), mem_putEngine.2 (.inl rfl), rfl⟩
    · by_cases hh : e.1 = h
      · exact ⟨(h, f), mem_putEngine.2 (.inl rfl), hh.symm⟩
      · exact ⟨e, mem_putEngine.2 (.inr ⟨he, hh⟩), rfl⟩

theorem isActive_iff {n : Node V A S} {h : Nat} : n.isActive h = true ↔ ∃ e ∈ n.engines, e.1 = h := by
  simp [Node.isActive]

theorem recoverLogs_from (committed : Option Nat) (xs : List (Nat × List (Entry V A S))) : ∀ r : Recovered (Entry V A S),
    xs.foldl (fun r f => classify committed r f.1 f.2) r =
      { incomplete := r.incomplete ++ xs.filter fun x => !isFinalized committed x.1 x.2
        finalized := r.finalized ++ xs.filter fun x => isFinalized committed x.1 x.2
        highestDecision := (xs.flatMap (·.2)).foldl maxDecision r.highestDecision } := by
  induction xs with
  | nil => intro r; simp
  | cons x xs ih =>
    intro r
    rw [List.foldl_cons, ih, List.flatMap_cons, List.foldl_append]
    unfold classify
    cases hf : isFinalized committed x.1 x.2 <;> simp [hf]

/-- The logs as entries are what is read from the files. -/
theorem recoverLogs_eq (c : Codec (Entry V A S)) (hc : c.Lawful) (committed : Option Nat) (xs : List (Nat × List (Entry V A S))) :
    recoverFiles c committed ⟨[], [], none⟩ (xs.map fun x => (x.1, fileOf c x.2)) = some (recoverLogs committed xs) := by
  rw [recoverLogs, recoverLogs_from, recoverFiles_readable c committed (xs := xs)]
  rw [List.map_map]
  refine List.map_congr_left fun x _ => ?_
  simp only [Function.comp, readEntries_complete hc]

theorem mem_restored {committed : Option Nat} {xs : List (Nat × List (Entry V A S))} {f : Nat × List (Entry V A S)} :
    (f ∈ (recoverLogs committed xs).finalized ∨ f ∈ (recoverLogs committed xs).incomplete) ↔ f ∈ xs := by
  rw [recoverLogs, recoverLogs_from]
  simp only [List.nil_append, List.mem_filter]
  cases isFinalized committed f.1 f.2 <;> simp

theorem highest_spec (committed : Option Nat) (xs : List (Nat × List (Entry V A S))) :
    (∀ f ∈ xs, ∀ h v, .decision h v ∈ f.2 → ∃ k, (recoverLogs committed xs).highestDecision = some k ∧ h ≤ k) ∧
    (∀ k, (recoverLogs committed xs).highestDecision = some k → ∃ f ∈ xs, ∃ v, .decision k v ∈ f.2) := by
  rw [recoverLogs, recoverLogs_from]
  obtain ⟨_, d2, d3⟩ := foldl_maxDecision (xs.flatMap (·.2)) none
  refine ⟨fun f hf h v hv => d2 h v (List.mem_flatMap.2 ⟨f, hf, hv⟩), fun k hk => ?_⟩
  rcases d3 k hk with h | ⟨v, hv⟩
  · cases h
  · obtain ⟨f, hf, he⟩ := List.mem_flatMap.1 hv
    exact ⟨f, hf, v, he⟩

theorem mem_foldl_put {fs : List (Nat × List (Entry V A S))} {acc : List (Nat × Bool)} {x : Nat × Bool}
    (h : x ∈ fs.foldl (fun acc f => putEngine f.1 (f.2.any Entry.isDecision) acc) acc) :
    x ∈ acc ∨ ∃ f ∈ fs, x = (f.1, f.2.any Entry.isDecision) := by
  induction fs generalizing acc with
  | nil => exact .inl h
  | cons f fs ih =>
    rcases ih h with h | ⟨g, hg, e⟩
    · rcases mem_putEngine.1 h with h | ⟨h, _⟩
      · exact .inr ⟨f, List.mem_cons_self, h⟩
      · exact .inl h
    · exact .inr ⟨g, List.mem_cons_of_mem _ hg, e⟩

theorem key_foldl_put {fs : List (Nat × List (Entry V A S))} {acc : List (Nat × Bool)} {k : Nat}
    (h : (∃ e ∈ acc, e.1 = k) ∨ ∃ f ∈ fs, f.1 = k) :
    ∃ e ∈ fs.foldl (fun acc f => putEngine f.1 (f.2.any Entry.isDecision) acc) acc, e.1 = k := by
  induction fs generalizing acc with
  | nil =>
    rcases h with h | ⟨f, hf, _⟩
    · exact h
    · cases hf
  | cons f fs ih =>
    apply ih
    rcases h with h | ⟨g, hg, rfl⟩
    · exact .inl (key_putEngine.2 (.inr h))
    · rcases List.mem_cons.1 hg with rfl | hg
      · exact .inl (key_putEngine.2 (.inl rfl))
      · exact .inr ⟨g, hg, rfl⟩

theorem any_decision {es : List (Entry V A S)} (h : es.any Entry.isDecision = true) : ∃ dh v, .decision dh v ∈ es := by
  obtain ⟨e, he, hd⟩ := List.any_eq_true.1 h
  cases e with
  | decision dh v => exact ⟨dh, v, he⟩
  | _ => cases hd

/-- An engine of the restarted node comes from a log. -/
theorem mem_recoverNode {depth : Nat} {c : Option Nat} {disk : List (Nat × List (Entry V A S))} {x : Nat × Bool}
    (h : x ∈ (recoverNode depth c disk).engines) : ∃ f ∈ disk, x = (f.1, f.2.any Entry.isDecision) := by
  rcases mem_foldl_put h with h | ⟨f, hf, e⟩
  · cases h
  · refine ⟨f, (mem_restored (committed := c)).1 ?_, e⟩
    rcases List.mem_append.1 hf with hf | hf
    · exact .inl (List.mem_filter.1 hf).1
    · exact .inr hf

theorem max?_spec {l : List Nat} {m : Nat} (h : l.max? = some m) : m ∈ l ∧ ∀ x ∈ l, x ≤ m := by
  have := List.max?_eq_some_iff.1 h
  exact ⟨this.1, fun x hx => this.2 x hx⟩

theorem max?_exists {l : List Nat} {x : Nat} (h : x ∈ l) : ∃ m, l.max? = some m := by
  cases hm : l.max? with
  | none => rw [List.max?_eq_none_iff] at hm; subst hm; cases h
  | some m => exact ⟨m, rfl⟩

/-- The highest log of all is started again. -/
theorem recoverNode_max {depth : Nat} {c : Option Nat} {disk : List (Nat × List (Entry V A S))} {f : Nat × List (Entry V A S)}
    (hf : f ∈ disk) : ∃ e ∈ (recoverNode depth c disk).engines, f.1 ≤ e.1 := by
  let r := recoverLogs c disk
  have hmem : f.1 ∈ (r.incomplete ++ r.finalized).map (·.1) := by
    refine List.mem_map.2 ⟨f, ?_, rfl⟩
    rcases (mem_restored (committed := c)).2 hf with h | h
    · exact List.mem_append_right _ h
    · exact List.mem_append_left _ h
  obtain ⟨m, hm⟩ := max?_exists hmem
  obtain ⟨m1, m2⟩ := max?_spec hm
  obtain ⟨g, hg, hgm⟩ := List.mem_map.1 m1
  have hin : ∃ e ∈ (recoverNode depth c disk).engines, e.1 = m := by
    refine key_foldl_put (.inr ⟨g, ?_, hgm⟩)
    rcases List.mem_append.1 hg with hg | hg
    · exact List.mem_append_right _ hg
    · refine List.mem_append_left _ (List.mem_filter.2 ⟨hg, ?_⟩)
      show Option.all _ (Option.bind (Option.or ((r.incomplete ++ r.finalized).map (·.1)).max? _) _) = true
      rw [hm]
      show Option.all _ (if m < depth then none else some (m - depth)) = true
      split
      · rfl
      · exact decide_eq_true (by omega)
  obtain ⟨e, he, rfl⟩ := hin
  exact ⟨e, he, m2 _ hmem⟩

theorem recoverNode_min {depth : Nat} {c : Option Nat} {disk : List (Nat × List (Entry V A S))} {m : Nat}
    (h : (recoverNode depth c disk).minKept = some m) :
    (∃ f ∈ disk, m ≤ f.1) ∨ ∃ k, (recoverLogs c disk).highestDecision = some k ∧ m ≤ k := by
  let r := recoverLogs c disk
  have h' : Option.bind (Option.or ((r.incomplete ++ r.finalized).map (·.1)).max? r.highestDecision)
      (fun m => if m < depth then none else some (m - depth)) = some m := h
  obtain ⟨k, hk, hm⟩ := Option.bind_eq_some_iff.1 h'
  have hle : m ≤ k := by
    split at hm
    · cases hm
    · cases hm; omega
  cases hx : ((r.incomplete ++ r.finalized).map (·.1)).max? with
  | none => rw [hx] at hk; exact .inr ⟨k, hk, hle⟩
  | some y =>
    rw [hx] at hk
    cases hk
    obtain ⟨g, hg, hgm⟩ := List.mem_map.1 (max?_spec hx).1
    refine .inl ⟨g, mem_restored.1 ((List.mem_append.1 hg).symm), ?_⟩
    show m ≤ g.1
    rw [hgm]; exact hle

/-! ### What holds in every run -/

/-- Flags and logs tell of decisions that were written. -/
structure Inv0 (t : Task V A S) (d : List Nat) : Prop where
  flag : ∀ h, (h, true) ∈ t.node.engines → h ∈ d
  logged : ∀ f ∈ t.node.disk, ∀ dh v, .decision dh v ∈ f.2 → dh = f.1 ∧ f.1 ∈ d
  last : ∀ m, t.node.lastDecided = some m → m ∈ d
  file : ∀ e ∈ t.node.engines, ∃ f ∈ t.node.disk, f.1 = e.1

theorem Inv0.create {t : Task V A S} {d : List Nat} (I : Inv0 t d) (h : Nat) : Inv0 { t with node := t.node.create h } d := by
  have hsub : ∀ f ∈ t.node.disk, f ∈ (t.node.create h).disk := by
    intro f hf
    show f ∈ if _ then _ else _
    split
    · exact hf
    · exact List.mem_append_left _ hf
  constructor
  · intro k hk
    rcases mem_putEngine.1 hk with hk | ⟨hk, _⟩
    · cases hk
    · exact I.flag k hk
  · intro f hf dh v hv
    have : f ∈ t.node.disk ∨ f = (h, []) := by
      have hf' : f ∈ if _ then _ else _ := hf
      split at hf'
      · exact .inl hf'
      · rcases List.mem_append.1 hf' with hf' | hf'
        · exact .inl hf'
        · exact .inr (List.mem_singleton.1 hf')
    rcases this with hf | rfl
    · exact I.logged f hf dh v hv
    · cases hv
  · exact I.last
  · intro e he
    rcases mem_putEngine.1 he with rfl | ⟨he, _⟩
    · unfold Node.create
      dsimp only
      split
      · rename_i hx
        obtain ⟨f, hf, hfe⟩ := List.any_eq_true.1 hx
        exact ⟨f, hf, by simpa using hfe⟩
      · exact ⟨(h, []), List.mem_append_right _ (List.mem_singleton.2 rfl), rfl⟩
    · obtain ⟨f, hf, hfe⟩ := I.file e he
      exact ⟨f, hsub f hf, hfe⟩

theorem Inv0.start {t : Task V A S} {d : List Nat} (I : Inv0 t d) (h : Nat) : Inv0 (t.start h) d := by
  unfold Task.start
  split
  · exact I
  · exact I.create h

theorem Inv0.congr {t t' : Task V A S} {d : List Nat} (I : Inv0 t d) (h : t'.node = t.node) : Inv0 t' d := by
  obtain ⟨n, k⟩ := t'
  cases h
  exact ⟨I.flag, I.logged, I.last, I.file⟩

theorem Inv0.write {t : Task V A S} {d : List Nat} (I : Inv0 t d) {h : Nat} {e : Entry V A S}
    (hd : ∀ dh v, e = .decision dh v → dh = h) :
    Inv0 { t with node := t.node.write h e } (if e.isDecision then h :: d else d) := by
  have hsub : d ⊆ (if e.isDecision then h :: d else d) := by
    split
    · exact List.subset_cons_self _ _
    · exact List.Subset.refl _
  constructor
  · intro k hk
    obtain ⟨x, hx, hxe⟩ := List.mem_map.1 hk
    split at hxe
    · rename_i hxh
      simp only [Prod.mk.injEq, Bool.or_eq_true] at hxe
      rcases hxe.2 with hx2 | hx2
      · refine hsub (I.flag k ?_)
        rw [← hxe.1, ← hx2]
        exact hx
      · rw [if_pos hx2, ← hxe.1, hxh]
        exact List.mem_cons_self
    · rw [hxe] at hx
      exact hsub (I.flag k hx)
  · intro f hf dh v hv
    obtain ⟨g, hg, hge⟩ := List.mem_map.1 hf
    split at hge
    · rename_i hgh
      subst hge
      rcases List.mem_append.1 hv with hv | hv
      · obtain ⟨h1, h2⟩ := I.logged g hg dh v hv
        exact ⟨h1, hsub h2⟩
      · have he := (List.mem_singleton.1 hv).symm
        have := hd dh v he
        subst he
        refine ⟨this.trans hgh.symm, ?_⟩
        show g.1 ∈ h :: d
        rw [hgh]
        exact List.mem_cons_self
    · subst hge
      obtain ⟨h1, h2⟩ := I.logged g hg dh v hv
      exact ⟨h1, hsub h2⟩
  · intro m hm
    exact hsub (I.last m hm)
  · intro x hx
    obtain ⟨y, hy, rfl⟩ := List.mem_map.1 hx
    obtain ⟨f, hf, hfe⟩ := I.file y hy
    refine ⟨_, List.mem_map.2 ⟨f, hf, rfl⟩, ?_⟩
    split <;> split <;> exact hfe

theorem foldl_last (hs : List Nat) (acc : Option Nat) (m : Nat)
    (h : hs.foldl (fun acc h => some (match acc with | some m => max m h | none => h)) acc = some m) : acc = some m ∨ m ∈ hs := by
  induction hs generalizing acc with
  | nil => exact .inl h
  | cons x hs ih =>
    rcases ih _ h with h | h
    · cases acc with
      | none => cases h; exact .inr List.mem_cons_self
      | some y =>
        simp only [Option.some.injEq] at h
        by_cases hxy : y ≤ x
        · exact .inr (by rw [show m = x by omega]; exact List.mem_cons_self)
        · exact .inl (by rw [show m = y by omega])
    · exact .inr (List.mem_cons_of_mem _ h)

/-- What pruning does. -/
theorem prune_cases (depth : Nat) (n : Node V A S) : n.prune depth = n ∨ ∃ m, (∃ e ∈ n.engines, e.1 = m) ∧ (∀ e ∈ n.engines, e.1 ≤ m) ∧
    depth ≤ m ∧ n.prune depth =
      { n with
        minKept := some (m - depth)
        engines := n.engines.filter fun e => decide (m - depth ≤ e.1)
        disk := n.disk.filter fun f => !(n.engines.any fun e => e.1 == f.1 && decide (e.1 < m - depth)) } := by
  unfold Node.prune
  cases hm : n.maxActive with
  | none => exact .inl rfl
  | some m =>
    obtain ⟨m1, m2⟩ := max?_spec hm
    by_cases h : m < depth
    · exact .inl (if_pos h)
    · refine .inr ⟨m, ?_, ?_, by omega, if_neg h⟩
      · obtain ⟨e, he, hem⟩ := List.mem_map.1 m1
        exact ⟨e, he, hem⟩
      · exact fun e he => m2 e.1 (List.mem_map.2 ⟨e, he, rfl⟩)

theorem Inv0.prune {t : Task V A S} {d : List Nat} (I : Inv0 t d) (depth : Nat) : Inv0 { t with node := t.node.prune depth } d := by
  rcases prune_cases depth t.node with h | ⟨m, ⟨e0, he0, hm0⟩, hmax, hdm, h⟩
  · exact I.congr h
  · refine Inv0.congr (t := { t with node := _ }) ?_ h
    constructor
    · exact fun k hk => I.flag k (List.mem_filter.1 hk).1
    · exact fun f hf => I.logged f (List.mem_filter.1 hf).1
    · exact I.last
    · intro e he
      obtain ⟨he, hle⟩ := List.mem_filter.1 he
      obtain ⟨f, hf, hfe⟩ := I.file e he
      refine ⟨f, List.mem_filter.2 ⟨hf, ?_⟩, hfe⟩
      have hle := of_decide_eq_true hle
      rw [Bool.not_eq_true', ← Bool.not_eq_true]
      intro hx
      obtain ⟨x, hx, hxf⟩ := List.any_eq_true.1 hx
      simp only [Bool.and_eq_true, beq_iff_eq, decide_eq_true_eq] at hxf
      omega

/-- What a poll does to the engines and logs. -/
theorem poll_cases (depth : Nat) (n : Node V A S) (hs : List Nat) :
    ((n.poll depth hs).engines = n.engines ∧ (n.poll depth hs).disk = n.disk ∧
      (hs = [] ∨ ∀ e ∈ n.engines, e.1 < depth)) ∨
    ∃ m, (∃ e ∈ n.engines, e.1 = m) ∧ (∀ e ∈ n.engines, e.1 ≤ m) ∧ depth ≤ m ∧
      (n.poll depth hs).engines = n.engines.filter (fun e => decide (m - depth ≤ e.1)) ∧
      (n.poll depth hs).disk = n.disk.filter fun f => !(n.engines.any fun e => e.1 == f.1 && decide (e.1 < m - depth)) := by
  unfold Node.poll
  dsimp only
  by_cases hn : hs = []
  · rw [if_pos hn]
    exact .inl ⟨rfl, rfl, .inl hn⟩
  · rw [if_neg hn]
    unfold Node.prune
    dsimp only [Node.maxActive]
    cases hm : (n.engines.map (·.1)).max? with
    | none =>
      refine .inl ⟨rfl, rfl, .inr fun e he => ?_⟩
      rw [List.max?_eq_none_iff, List.map_eq_nil_iff] at hm
      rw [hm] at he
      cases he
    | some m =>
      obtain ⟨m1, m2⟩ := max?_spec hm
      have m2' : ∀ e ∈ n.engines, e.1 ≤ m := fun e he => m2 e.1 (List.mem_map.2 ⟨e, he, rfl⟩)
      dsimp only
      by_cases h : m < depth
      · rw [if_pos h]
        exact .inl ⟨rfl, rfl, .inr fun e he => by have := m2' e he; omega⟩
      · rw [if_neg h]
        obtain ⟨e, he, hem⟩ := List.mem_map.1 m1
        exact .inr ⟨m, ⟨e, he, hem⟩, m2', by omega, rfl, rfl⟩

theorem Inv0.poll {t : Task V A S} {d : List Nat} (I : Inv0 t d) (depth : Nat) {hs : List Nat} (hd : ∀ h ∈ hs, h ∈ d) :
    Inv0 { t with node := t.node.poll depth hs } d := by
  have I' : Inv0 { t with node := { t.node with
      lastDecided := hs.foldl (fun acc h => some (match acc with | some m => max m h | none => h)) t.node.lastDecided } } d := by
    refine ⟨I.flag, I.logged, fun m hm => ?_, I.file⟩
    rcases foldl_last _ _ _ hm with h | h
    · exact I.last m h
    · exact hd m h
  by_cases h : hs = []
  · exact I'.congr (if_pos h)
  · exact (I'.prune depth).congr (if_neg h)

theorem Inv0.boot {t : Task V A S} {d : List Nat} (I : Inv0 t d) (depth : Nat) (c : Option Nat) :
    Inv0 (Task.boot depth c t.node.disk) d := by
  refine Inv0.start ?_ _
  constructor
  · intro h hh
    obtain ⟨f, hf, e⟩ := mem_recoverNode hh
    simp only [Prod.mk.injEq] at e
    obtain ⟨dh, v, hv⟩ := any_decision e.2.symm
    rw [e.1]
    exact (I.logged f hf dh v hv).2
  · exact I.logged
  · intro m hm
    obtain ⟨f, hf, v, hv⟩ := (highest_spec c t.node.disk).2 m hm
    obtain ⟨h1, h2⟩ := I.logged f hf m v hv
    rw [h1]; exact h2
  · intro e he
    obtain ⟨f, hf, rfl⟩ := mem_recoverNode he
    exact ⟨f, hf, rfl⟩

theorem Reach.inv0 {depth : Nat} {okMsg okEvent : Task V A S → List Nat → Option Nat → Nat → Prop} {t : Task V A S} {d : List Nat}
    {c : Option Nat} (h : Reach depth okMsg okEvent t d c) : Inv0 t d := by
  induction h with
  | boot c =>
    refine Inv0.start ?_ _
    constructor
    · intro h hh; obtain ⟨f, hf, _⟩ := mem_recoverNode hh; cases hf
    · intro f hf; cases hf
    · intro m hm; obtain ⟨f, hf, _⟩ := (highest_spec c ([] : List (Nat × List (Entry V A S)))).2 m hm; cases hf
    · intro e he; obtain ⟨f, hf, _⟩ := mem_recoverNode he; cases hf
  | commit n _ _ ih => exact ih
  | message h _ _ ih =>
    unfold Task.message
    split
    · exact ih
    · exact ih.start h
  | write h e _ _ hd ih => exact ih.write hd
  | poll hs _ hd ih => exact ih.poll _ fun h hh => (hd h hh).1
  | @event t d c h _ _ _ ih =>
    have ih' : Inv0 { t with next := max t.next h + 1 } d := ih.congr rfl
    exact ih'.start _
  | restart _ ih => exact ih.boot _ _

/-! ### What holds in orderly runs -/

/-- Everything below what is known of is settled, and a decision that is not on disk any more is far below an engine. -/
structure Inv1 (depth : Nat) (t : Task V A S) (d : List Nat) (c : Option Nat) : Prop where
  below : ∀ e ∈ t.node.engines, ∀ k < e.1, Done d c k
  min : ∀ m, t.node.minKept = some m → ∀ k < m, Done d c k
  next : ∀ k < t.next, Done d c k
  disk : ∀ f ∈ t.node.disk, ∀ k < f.1, Done d c k
  kept : ∀ h ∈ d, ∀ k < h, Done d c k
  found : ∀ h ∈ d, (∃ f ∈ t.node.disk, f.1 = h ∧ ∃ v, .decision h v ∈ f.2) ∨ ∃ e ∈ t.node.engines, h + depth < e.1

theorem Inv1.create {depth : Nat} {t : Task V A S} {d : List Nat} {c : Option Nat} (I : Inv1 depth t d c) {h : Nat}
    (hh : ∀ k < h, Done d c k) : Inv1 depth { t with node := t.node.create h } d c := by
  have hsub : ∀ f ∈ t.node.disk, f ∈ (t.node.create h).disk := by
    intro f hf
    show f ∈ if _ then _ else _
    split
    · exact hf
    · exact List.mem_append_left _ hf
  constructor
  · intro e he
    rcases mem_putEngine.1 he with rfl | ⟨he, _⟩
    · exact hh
    · exact I.below e he
  · exact I.min
  · exact I.next
  · intro f hf
    have hf' : f ∈ if _ then _ else _ := hf
    split at hf'
    · exact I.disk f hf'
    · rcases List.mem_append.1 hf' with hf' | hf'
      · exact I.disk f hf'
      · rw [List.mem_singleton.1 hf']; exact hh
  · exact I.kept
  · intro k hk
    rcases I.found k hk with ⟨f, hf, hx⟩ | ⟨e, he, hlt⟩
    · exact .inl ⟨f, hsub f hf, hx⟩
    · obtain ⟨e', he', heq⟩ := key_putEngine (f := false) (h := h).2 (.inr ⟨e, he, rfl⟩)
      exact .inr ⟨e', he', by rw [heq]; exact hlt⟩

theorem Inv1.start {depth : Nat} {t : Task V A S} {d : List Nat} {c : Option Nat} (I : Inv1 depth t d c) {h : Nat}
    (hh : ∀ k < h, Done d c k) : Inv1 depth (t.start h) d c := by
  unfold Task.start
  split
  · exact I
  · exact I.create hh

theorem Inv1.mono {depth : Nat} {t : Task V A S} {d : List Nat} {c c' : Option Nat} (I : Inv1 depth t d c)
    (h : ∀ k, Done d c k → Done d c' k) : Inv1 depth t d c' :=
  ⟨fun e he k hk => h k (I.below e he k hk), fun m hm k hk => h k (I.min m hm k hk), fun k hk => h k (I.next k hk),
    fun f hf k hk => h k (I.disk f hf k hk), fun x hx k hk => h k (I.kept x hx k hk), I.found⟩

theorem Inv1.write {depth : Nat} {t : Task V A S} {d : List Nat} {c : Option Nat} (I : Inv1 depth t d c) (I0 : Inv0 t d) {h : Nat}
    {e : Entry V A S} (ha : t.node.isActive h = true) (hd : ∀ dh v, e = .decision dh v → dh = h) :
    Inv1 depth { t with node := t.node.write h e } (if e.isDecision then h :: d else d) c := by
  have hsub : d ⊆ (if e.isDecision then h :: d else d) := by
    split
    · exact List.subset_cons_self _ _
    · exact List.Subset.refl _
  have up : ∀ k, Done d c k → Done (if e.isDecision then h :: d else d) c k :=
    fun k hk => hk.mono hsub fun x hx => ⟨x, hx, Nat.le_refl _⟩
  obtain ⟨e0, he0, rfl⟩ := isActive_iff.1 ha
  have fsts : ∀ x ∈ t.node.engines, ∃ y ∈ (t.node.write e0.1 e).engines, y.1 = x.1 := by
    intro x hx
    refine ⟨_, List.mem_map.2 ⟨x, hx, rfl⟩, ?_⟩
    split <;> rfl
  constructor
  · intro x hx k hk
    obtain ⟨y, hy, rfl⟩ := List.mem_map.1 hx
    refine up k (I.below y hy k ?_)
    revert hk
    split <;> exact id
  · exact fun m hm k hk => up k (I.min m hm k hk)
  · exact fun k hk => up k (I.next k hk)
  · intro f hf k hk
    obtain ⟨g, hg, rfl⟩ := List.mem_map.1 hf
    refine up k (I.disk g hg k ?_)
    revert hk
    split <;> exact id
  · intro x hx k hk
    have : x ∈ d ∨ x = e0.1 := by
      split at hx
      · rcases List.mem_cons.1 hx with h | h
        · exact .inr h
        · exact .inl h
      · exact .inl hx
    rcases this with h | rfl
    · exact up k (I.kept x h k hk)
    · exact up k (I.below e0 he0 k hk)
  · intro x hx
    have old : x ∈ d → (∃ f ∈ (t.node.write e0.1 e).disk, f.1 = x ∧ ∃ v, .decision x v ∈ f.2) ∨
        ∃ y ∈ (t.node.write e0.1 e).engines, x + depth < y.1 := by
      intro hx
      rcases I.found x hx with ⟨f, hf, hfx, v, hv⟩ | ⟨y, hy, hlt⟩
      · refine .inl ⟨_, List.mem_map.2 ⟨f, hf, rfl⟩, ?_⟩
        split
        · exact ⟨hfx, v, List.mem_append_left _ hv⟩
        · exact ⟨hfx, v, hv⟩
      · obtain ⟨z, hz, hzy⟩ := fsts y hy
        exact .inr ⟨z, hz, by rw [hzy]; exact hlt⟩
    split at hx
    · rename_i hdec
      rcases List.mem_cons.1 hx with rfl | hx
      · cases e with
        | decision dh v =>
          have := hd dh v rfl
          subst this
          obtain ⟨f, hf, hfe⟩ := I0.file e0 he0
          refine .inl ⟨_, List.mem_map.2 ⟨f, hf, rfl⟩, ?_⟩
          rw [if_pos hfe]
          exact ⟨hfe, v, List.mem_append_right _ (List.mem_singleton.2 rfl)⟩
        | _ => cases hdec
      · exact old hx
    · exact old hx

theorem Inv1.congr {depth : Nat} {t t' : Task V A S} {d : List Nat} {c : Option Nat} (I : Inv1 depth t d c) (h : t'.node = t.node)
    (h' : t'.next = t.next) : Inv1 depth t' d c := by
  obtain ⟨n, k⟩ := t'
  cases h
  cases h'
  exact ⟨I.below, I.min, I.next, I.disk, I.kept, I.found⟩

theorem Inv1.prune {depth : Nat} {t : Task V A S} {d : List Nat} {c : Option Nat} (I : Inv1 depth t d c) :
    Inv1 depth { t with node := t.node.prune depth } d c := by
  rcases prune_cases depth t.node with h | ⟨m, ⟨e0, he0, hm0⟩, hmax, hdm, h⟩
  · exact I.congr h rfl
  · refine Inv1.congr (t := { t with node := _ }) ?_ h rfl
    have htop : e0 ∈ t.node.engines.filter fun e => decide (m - depth ≤ e.1) :=
      List.mem_filter.2 ⟨he0, decide_eq_true (by omega)⟩
    constructor
    · exact fun e he => I.below e (List.mem_filter.1 he).1
    · intro x hx k hk
      cases hx
      exact I.below e0 he0 k (by omega)
    · exact I.next
    · exact fun f hf => I.disk f (List.mem_filter.1 hf).1
    · exact I.kept
    · intro x hx
      rcases I.found x hx with ⟨f, hf, hfx, hv⟩ | ⟨y, hy, hlt⟩
      · by_cases hdel : (t.node.engines.any fun e => e.1 == f.1 && decide (e.1 < m - depth)) = true
        · obtain ⟨y, hy, hyf⟩ := List.any_eq_true.1 hdel
          simp only [Bool.and_eq_true, beq_iff_eq, decide_eq_true_eq] at hyf
          exact .inr ⟨e0, htop, by omega⟩
        · refine .inl ⟨f, List.mem_filter.2 ⟨hf, ?_⟩, hfx, hv⟩
          rw [Bool.not_eq_true', ← Bool.not_eq_true]
          exact hdel
      · have := hmax y hy
        exact .inr ⟨e0, htop, by omega⟩

theorem Inv1.boot {depth : Nat} {t : Task V A S} {d : List Nat} {c : Option Nat} (I : Inv1 depth t d c) (I0 : Inv0 t d) :
    Inv1 depth (Task.boot depth c t.node.disk) d c := by
  have hlast : ∀ m, (recoverLogs c t.node.disk).highestDecision = some m → ∀ k < m, Done d c k := by
    intro m hm k hk
    obtain ⟨f, hf, v, hv⟩ := (highest_spec c t.node.disk).2 m hm
    obtain ⟨h1, h2⟩ := I0.logged f hf m v hv
    exact I.disk f hf k (by omega)
  have hbelow : ∀ e ∈ (recoverNode depth c t.node.disk).engines, ∀ k < e.1, Done d c k := by
    intro e he k hk
    obtain ⟨f, hf, rfl⟩ := mem_recoverNode he
    exact I.disk f hf k hk
  have hnext : ∀ k < max (max ((recoverNode depth c t.node.disk).maxActive.getD 0) ((recoverNode depth c t.node.disk).lastDecided.getD 0))
      (match c with | some c => c + 1 | none => 0), Done d c k := by
    intro k hk
    by_cases h1 : k < (recoverNode depth c t.node.disk).maxActive.getD 0
    · cases hm : (recoverNode depth c t.node.disk).maxActive with
      | none => rw [hm] at h1; exact absurd h1 (Nat.not_lt_zero _)
      | some m =>
        rw [hm] at h1
        obtain ⟨e, he, hem⟩ := List.mem_map.1 (max?_spec hm).1
        exact hbelow e he k (by rw [hem]; exact h1)
    by_cases h2 : k < (recoverNode depth c t.node.disk).lastDecided.getD 0
    · cases hm : (recoverLogs c t.node.disk).highestDecision with
      | none =>
        rw [show (recoverNode depth c t.node.disk).lastDecided = none from hm] at h2
        exact absurd h2 (Nat.not_lt_zero _)
      | some m =>
        rw [show (recoverNode depth c t.node.disk).lastDecided = some m from hm] at h2
        exact hlast m hm k h2
    cases c with
    | none => simp only at hk; omega
    | some c => exact .inr ⟨c, rfl, by simp only at hk; omega⟩
  refine Inv1.start ?_ hnext
  constructor
  · exact hbelow
  · intro m hm k hk
    rcases recoverNode_min hm with ⟨f, hf, hle⟩ | ⟨x, hx, hle⟩
    · exact I.disk f hf k (by omega)
    · exact hlast x hx k (by omega)
  · exact hnext
  · exact I.disk
  · exact I.kept
  · intro x hx
    rcases I.found x hx with h | ⟨e, he, hlt⟩
    · exact .inl h
    · obtain ⟨f, hf, hfe⟩ := I0.file e he
      obtain ⟨e', he', hle⟩ := recoverNode_max (depth := depth) (c := c) hf
      exact .inr ⟨e', he', by omega⟩

theorem Inv1.withLast {depth : Nat} {t : Task V A S} {d : List Nat} {c : Option Nat} (I : Inv1 depth t d c) (l : Option Nat) :
    Inv1 depth { t with node := { t.node with lastDecided := l } } d c :=
  ⟨I.below, I.min, I.next, I.disk, I.kept, I.found⟩

theorem Reach.inv1 {depth : Nat} {t : Task V A S} {d : List Nat} {c : Option Nat} (h : Reach depth inOrder notLate t d c) :
    Inv1 depth t d c := by
  induction h with
  | boot c =>
    have E : Inv1 (V := V) (A := A) (S := S) depth ⟨⟨[], [], none, none⟩, 0⟩ [] c :=
      ⟨nofun, nofun, fun k hk => absurd hk (Nat.not_lt_zero _), nofun, nofun, nofun⟩
    exact E.boot ⟨nofun, nofun, nofun, nofun⟩
  | commit n _ hn ih => exact ih.mono fun k hk => hk.mono (List.Subset.refl _) fun x hx => ⟨n, rfl, hn x hx⟩
  | message h _ hok ih =>
    unfold Task.message
    split
    · exact ih
    · exact ih.start hok
  | write h e hr ha hd ih => exact ih.write hr.inv0 ha hd
  | @poll t d c hs _ hd ih =>
    have ih' := fun l => ih.withLast l
    by_cases h : hs = []
    · exact Inv1.congr (ih' _) (if_pos h) rfl
    · exact Inv1.congr (Inv1.prune (ih' _)) (if_neg h) rfl
  | @event t d c h _ hd hok ih =>
    have hn : ∀ k < max t.next h + 1, Done d c k := by
      intro k hk
      by_cases h1 : k < t.next
      · exact ih.next k h1
      by_cases h2 : k < h
      · exact ih.kept h hd k h2
      by_cases h3 : k = h
      · exact h3 ▸ .inl hd
      · have h4 : k = t.next := by omega
        rcases hok with hok | hok
        · omega
        · exact h4 ▸ hok
    have ih' : Inv1 depth { t with next := max t.next h + 1 } d c := ⟨ih.below, ih.min, hn, ih.disk, ih.kept, ih.found⟩
    exact ih'.start hn
  | restart hr ih => exact ih.boot hr.inv0

end Verif.Cons
