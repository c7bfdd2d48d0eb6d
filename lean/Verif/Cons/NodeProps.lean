import Verif.Cons.NodeLemmas
/-! # C44 and C54: decided heights across votes, pruning and restarts -/
namespace Verif.Cons

variable {V A S : Type}

/-- C54, in every run: the engine of a height that is at work says "finalised" only when that height was decided. -/
theorem C54_active {depth : Nat} {okMsg okEvent : Task V A S → List Nat → Option Nat → Nat → Prop} {t : Task V A S} {d : List Nat}
    {c : Option Nat} (hr : Reach depth okMsg okEvent t d c) (h : Nat) (ha : t.node.isActive h = true)
    (hf : t.node.isHeightFinalized h = true) : h ∈ d := by
  obtain ⟨e, he, heh⟩ := isActive_iff.1 ha
  unfold Node.isHeightFinalized at hf
  cases hx : t.node.engines.find? (fun e => e.1 == h) with
  | none => exact absurd (beq_iff_eq.2 heh) (List.find?_eq_none.1 hx e he)
  | some e' =>
    rw [hx] at hf
    have h1 := List.find?_some hx
    have h2 := List.mem_of_find?_eq_some hx
    have hf : e'.2 = true := hf
    refine hr.inv0.flag h ?_
    rw [← beq_iff_eq.1 h1, ← hf]
    exact h2

/-- C54: a message of a peer never starts the engine of a height that is not above the last decision, and starts no other height
than its own. -/
theorem C54_messages (t : Task V A S) (h k : Nat) (ha : (t.message h).node.isActive k = true) :
    t.node.isActive k = true ∨ (k = h ∧ ∀ d, t.node.lastDecided = some d → d < h) := by
  unfold Task.message at ha
  by_cases hd : (t.node.lastDecided.any fun d => decide (h ≤ d)) = true
  · rw [if_pos hd] at ha
    exact .inl ha
  · rw [if_neg hd] at ha
    unfold Task.start at ha
    by_cases hh : t.node.isActive h = true
    · rw [if_pos hh] at ha
      exact .inl ha
    · rw [if_neg hh] at ha
      by_cases hk : k = h
      · refine .inr ⟨hk, fun d hs => ?_⟩
        rw [hs] at hd
        simpa using hd
      · left
        obtain ⟨e, he, hek⟩ := isActive_iff.1 ha
        refine isActive_iff.2 ⟨e, ?_, hek⟩
        rcases mem_putEngine.1 he with he | he
        · exact absurd (hek.symm.trans (congrArg Prod.fst he)) hk
        · exact he.1

/-- A height at the last decision stays without engine, the one above gets one. -/
example : let t : Task Nat Nat Nat := ⟨⟨[], [], none, some 4⟩, 5⟩
    (t.message 4).node.isActive 4 = false ∧ (t.message 5).node.isActive 5 = true := by decide

/-- C54: if peers never send messages for heights above an unsettled one and decisions come in order, then a height is said to be
finalised only if it was decided or its block is committed. Missing: the code does not enforce either (see below). -/
theorem C54_finalized_partial {depth : Nat} {t : Task V A S} {d : List Nat} {c : Option Nat}
    (hr : Reach depth inOrder notLate t d c) (h : Nat) (hf : t.node.isHeightFinalized h = true) : Done d c h := by
  unfold Node.isHeightFinalized at hf
  cases hx : t.node.engines.find? (fun e => e.1 == h) with
  | some e =>
    have h1 := List.find?_some hx
    refine .inl (C54_active hr h (isActive_iff.2 ⟨e, List.mem_of_find?_eq_some hx, beq_iff_eq.1 h1⟩) ?_)
    unfold Node.isHeightFinalized
    rw [hx]
    rw [hx] at hf
    exact hf
  | none =>
    rw [hx] at hf
    cases hm : t.node.minKept with
    | none => rw [hm] at hf; exact absurd hf Bool.false_ne_true
    | some m => rw [hm] at hf; exact hr.inv1.min m hm h (of_decide_eq_true hf)

/-- C54: in such runs the engine and the log of a height that is not settled are never dropped by a poll. -/
theorem C54_kept_partial {depth : Nat} {t : Task V A S} {d : List Nat} {c : Option Nat}
    (hr : Reach depth inOrder notLate t d c) (hs : List Nat) (h : Nat) (hu : ¬ Done d c h) :
    (t.node.isActive h = true → (t.node.poll depth hs).isActive h = true) ∧
    (∀ es, (h, es) ∈ t.node.disk → (h, es) ∈ (t.node.poll depth hs).disk) := by
  have I := hr.inv1
  unfold Node.isActive
  rcases poll_cases depth t.node hs with ⟨h1, h2, _⟩ | ⟨m, ⟨e0, he0, hm0⟩, hmax, hdm, h1, h2⟩
  · rw [h1, h2]
    exact ⟨id, fun _ => id⟩
  · rw [h1, h2]
    have hge : m ≤ h := by
      rcases Nat.lt_or_ge h m with hlt | hge
      · exact absurd (I.below e0 he0 h (by omega)) hu
      · exact hge
    refine ⟨fun ha => ?_, fun es he => ?_⟩
    · obtain ⟨e, he, heh⟩ := List.any_eq_true.1 ha
      have := beq_iff_eq.1 heh
      exact List.any_eq_true.2 ⟨e, List.mem_filter.2 ⟨he, decide_eq_true (by omega)⟩, heh⟩
    · refine List.mem_filter.2 ⟨he, ?_⟩
      rw [Bool.not_eq_true', ← Bool.not_eq_true]
      intro hx
      obtain ⟨x, _, hxf⟩ := List.any_eq_true.1 hx
      simp only [Bool.and_eq_true, beq_iff_eq, decide_eq_true_eq] at hxf
      omega

/-- C54: in any run a poll keeps the engine of every height within `depth` of the highest one. -/
theorem C54_window (depth : Nat) (n : Node V A S) (hs : List Nat) (h : Nat) (ha : n.isActive h = true)
    (hw : ∀ e ∈ n.engines, e.1 ≤ h + depth) : (n.poll depth hs).isActive h = true := by
  unfold Node.isActive at ha ⊢
  rcases poll_cases depth n hs with ⟨h1, _, _⟩ | ⟨m, ⟨e0, he0, hm0⟩, hmax, hdm, h1, _⟩
  · rw [h1]; exact ha
  · rw [h1]
    obtain ⟨e, he, heh⟩ := List.any_eq_true.1 ha
    have := beq_iff_eq.1 heh
    have := hw e0 he0
    exact List.any_eq_true.2 ⟨e, List.mem_filter.2 ⟨he, decide_eq_true (by omega)⟩, heh⟩

/-- C54: in any run, after a decision the engines left are within `depth` heights of each other: memory is bounded. -/
theorem C54_bounded (depth : Nat) (n : Node V A S) (hs : List Nat) (hne : hs ≠ []) :
    ∀ e ∈ (n.poll depth hs).engines, ∀ e' ∈ (n.poll depth hs).engines, e'.1 ≤ e.1 + depth := by
  rcases poll_cases depth n hs with ⟨h1, _, h3⟩ | ⟨m, ⟨e0, he0, hm0⟩, hmax, hdm, h1, _⟩
  · rw [h1]
    intro e _ e' he'
    have := (h3.resolve_left hne) e' he'
    omega
  · rw [h1]
    intro e he e' he'
    have h4 := hmax e' (List.mem_filter.1 he').1
    have h5 := of_decide_eq_true (List.mem_filter.1 he).2
    omega

theorem boot_last (depth : Nat) (c : Option Nat) (disk : List (Nat × List (Entry V A S))) :
    (Task.boot depth c disk).node.lastDecided = (recoverLogs c disk).highestDecision := by
  unfold Task.boot Task.start
  dsimp only
  rw [apply_ite Task.node, apply_ite Node.lastDecided]
  exact ite_self _

/-- C44, restarts: in orderly runs with a history of at least one height, a restart never forgets the last decision: the restarted node
has a last decision at least as high, or that block is committed. -/
theorem C44_restart_partial {depth : Nat} (hd : 1 ≤ depth) {t : Task V A S} {d : List Nat} {c : Option Nat}
    (hr : Reach depth inOrder notLate t d c) {m : Nat} (hm : t.node.lastDecided = some m) :
    (∃ m', (Task.boot depth c t.node.disk).node.lastDecided = some m' ∧ m ≤ m') ∨ ∃ x, c = some x ∧ m ≤ x := by
  have I0 := hr.inv0
  have I := hr.inv1
  have boot : ∀ f ∈ t.node.disk, ∀ h v, .decision h v ∈ f.2 → m ≤ h →
      ∃ m', (Task.boot depth c t.node.disk).node.lastDecided = some m' ∧ m ≤ m' := by
    intro f hf h v hv hle
    obtain ⟨k, hk, hhk⟩ := (highest_spec c t.node.disk).1 f hf h v hv
    refine ⟨k, ?_, by omega⟩
    rw [boot_last]
    exact hk
  rcases I.found m (I0.last m hm) with ⟨f, hf, _, v, hv⟩ | ⟨e, he, hlt⟩
  · exact .inl (boot f hf m v hv (Nat.le_refl _))
  · obtain ⟨M, hM⟩ := max?_exists (List.mem_map.2 ⟨e, he, rfl⟩ : e.1 ∈ t.node.engines.map (·.1))
    obtain ⟨h1, h2⟩ := max?_spec hM
    obtain ⟨E, hE, hEM⟩ := List.mem_map.1 h1
    have heM := h2 e.1 (List.mem_map.2 ⟨e, he, rfl⟩)
    rcases I.below E hE (M - 1) (by omega) with hx | ⟨x, hx, hle⟩
    · rcases I.found (M - 1) hx with ⟨f, hf, _, v, hv⟩ | ⟨e', he', hlt'⟩
      · exact .inl (boot f hf (M - 1) v hv (by omega))
      · have := h2 e'.1 (List.mem_map.2 ⟨e', he', rfl⟩)
        omega
    · exact .inr ⟨x, hx, by omega⟩

theorem start_keeps (t : Task V A S) (h : Nat) : (∀ k, t.node.isActive k = true → (t.start h).node.isActive k = true) ∧
    ∀ f ∈ t.node.disk, f ∈ (t.start h).node.disk := by
  unfold Task.start
  split
  · exact ⟨fun _ => id, fun _ => id⟩
  · refine ⟨fun k hk => isActive_iff.2 (key_putEngine.2 (.inr (isActive_iff.1 hk))), fun f hf => ?_⟩
    show f ∈ if _ then _ else _
    split
    · exact hf
    · exact List.mem_append_left _ hf

/-- C44, restarts in any run: an unfinished height comes back with its engine, and its log is left alone. -/
theorem C44_unfinished (depth : Nat) (c : Option Nat) (disk : List (Nat × List (Entry V A S))) {f : Nat × List (Entry V A S)}
    (hf : f ∈ disk) (hd : ∀ dh v, .decision dh v ∉ f.2) (hc : ∀ x, c = some x → x < f.1) :
    (Task.boot depth c disk).node.isActive f.1 = true ∧ f ∈ (Task.boot depth c disk).node.disk := by
  have hfin : isFinalized c f.1 f.2 = false := by
    rw [← Bool.not_eq_true]
    intro h
    unfold isFinalized at h
    obtain ⟨e, he, h⟩ := List.any_eq_true.1 h
    rw [Bool.or_eq_true] at h
    rcases h with h | h
    · obtain ⟨dh, v, hv⟩ := any_decision (es := f.2) (List.any_eq_true.2 ⟨e, he, h⟩)
      exact hd dh v hv
    · cases c with
      | none => exact absurd h Bool.false_ne_true
      | some x =>
        have := hc x rfl
        have := of_decide_eq_true (p := f.1 ≤ x) h
        omega
  have hin : f ∈ (recoverLogs c disk).incomplete := by
    rw [recoverLogs, recoverLogs_from]
    exact List.mem_filter.2 ⟨hf, by rw [hfin]; rfl⟩
  have ha : (recoverNode depth c disk).isActive f.1 = true :=
    isActive_iff.2 (key_foldl_put (.inr ⟨f, List.mem_append_right _ hin, rfl⟩))
  have hk : f ∈ (recoverNode depth c disk).disk := hf
  exact ⟨(start_keeps ⟨recoverNode depth c disk, _⟩ _).1 f.1 ha, (start_keeps ⟨recoverNode depth c disk, _⟩ _).2 f hk⟩

/-- An orderly run: height 0 is decided and reported, height 1 is voted on, and the node restarts. -/
def orderly : Task Nat Nat Nat :=
  let t : Task Nat Nat Nat := Task.boot 1 none []
  let t := { t with node := t.node.write 0 (.decision 0 7) }
  let t := { t with node := t.node.poll 1 [0] }
  let t := t.decided 0
  let t := { t with node := t.node.write 1 (.vote true 1 (some 0) none 5 9) }
  Task.boot 1 none t.node.disk

/-- The orderly run meets the hypotheses of the theorems above. -/
theorem orderly_reach : Reach 1 inOrder notLate orderly [0] none := by
  have h0 : Reach 1 inOrder notLate (Task.boot 1 none [] : Task Nat Nat Nat) [] none := .boot _
  have h1 := Reach.write 0 (.decision 0 7) h0 (by decide) (by intro dh v h; cases h; rfl)
  have h2 := Reach.poll [0] h1 (by decide)
  have h3 := Reach.event 0 h2 (by decide) (.inl (by decide))
  have h4 := Reach.write 1 (.vote true 1 (some 0) none 5 9) h3 (by decide) (by intro dh v h; cases h)
  exact Reach.restart h4

example : orderly.node.isHeightFinalized 0 = true ∧ orderly.node.isHeightFinalized 1 = false ∧ orderly.node.lastDecided = some 0 ∧
    orderly.node.isActive 1 = true ∧ orderly.node.disk = [(0, [.decision 0 7]), (1, [.vote true 1 (some 0) none 5 9])] := by decide

example : Done [0] none 0 := C54_finalized_partial orderly_reach 0 (by decide)

example : ∃ m', (Task.boot 1 none orderly.node.disk).node.lastDecided = some m' ∧ 0 ≤ m' := by
  rcases C44_restart_partial (Nat.le_refl 1) orderly_reach (m := 0) (by decide) with h | ⟨x, hx, _⟩
  · exact h
  · cases hx

/-! ### Violations -/

/-- The run of the witness: the node works on height 1, a peer sends a vote for height 1000, and height 1 is decided. -/
def farVote : Task Nat Nat Nat :=
  let t := ((Task.boot 10 (some 0) []).message 1000)
  let t := { t with node := t.node.write 1 (.decision 1 7) }
  { t with node := t.node.poll 10 [1] }

/-- C54 is violated: a vote for a far height makes the node report undecided heights as finalised, and drop their engines. -/
theorem C54_violated : ∃ t : Task Nat Nat Nat, Reach 10 anyHeight anyHeight t [1] (some 0) ∧
    t.node.isHeightFinalized 5 = true ∧ ¬ Done [1] (some 0) 5 := by
  refine ⟨farVote, ?_, by decide, ?_⟩
  · have h0 : Reach 10 anyHeight anyHeight (Task.boot 10 (some 0) [] : Task Nat Nat Nat) [] (some 0) := .boot _
    have h1 := Reach.message 1000 h0 trivial
    have h2 := Reach.write 1 (.decision 1 7) h1 (by decide) (by intro dh v h; cases h; rfl)
    exact Reach.poll [1] h2 (by decide)
  · rintro (h | ⟨x, hx, hle⟩)
    · exact absurd h (by decide)
    · cases hx; omega

/-- The run of the second witness: the node has also voted at height 2 when height 1 is decided. -/
def lostVote : Task Nat Nat Nat :=
  let t := ((Task.boot 10 (some 0) []).message 1000).message 2
  let t := { t with node := t.node.write 2 (.vote true 2 (some 0) none 5 9) }
  let t := { t with node := t.node.write 1 (.decision 1 7) }
  { t with node := t.node.poll 10 [1] }

/-- C54 is violated: the log with the votes at an undecided height is deleted, and the height can then be started afresh, so the node
may vote differently there. -/
theorem C54_vote_violated : Reach 10 anyHeight anyHeight lostVote [1] (some 0) ∧ ¬ Done [1] (some 0) 2 ∧
    lostVote.node.disk.any (fun f => f.1 == 2) = false ∧ (2, []) ∈ (lostVote.message 2).node.disk := by
  refine ⟨?_, ?_, by decide, by decide⟩
  · have h0 : Reach 10 anyHeight anyHeight (Task.boot 10 (some 0) [] : Task Nat Nat Nat) [] (some 0) := .boot _
    have h1 := Reach.message 2 (Reach.message 1000 h0 trivial) trivial
    have h2 := Reach.write 2 (.vote true 2 (some 0) none 5 9) h1 (by decide) (by intro dh v h; cases h)
    have h3 := Reach.write 1 (.decision 1 7) h2 (by decide) (by intro dh v h; cases h; rfl)
    exact Reach.poll [1] h3 (by decide)
  · rintro (h | ⟨x, hx, hle⟩)
    · exact absurd h (by decide)
    · cases hx; omega

/-- The run of the third witness: without history, height 2 starts before the decision on height 1 is polled. -/
def noHistory : Task Nat Nat Nat :=
  let t := (Task.boot 0 (some 0) [])
  let t := { t with node := t.node.write 1 (.decision 1 7) }
  let t := t.message 2
  { t with node := t.node.poll 0 [1] }

/-- C44 is violated when the history depth is 0: even in an orderly run the last decision is gone after a restart. -/
theorem C44_restart_violated : Reach 0 inOrder notLate noHistory [1] (some 0) ∧ noHistory.node.lastDecided = some 1 ∧
    (Task.boot 0 (some 0) noHistory.node.disk).node.lastDecided = none := by
  refine ⟨?_, by decide, by decide⟩
  have h0 : Reach 0 inOrder notLate (Task.boot 0 (some 0) [] : Task Nat Nat Nat) [] (some 0) := .boot _
  have h1 := Reach.write 1 (.decision 1 7) h0 (by decide) (by intro dh v h; cases h; rfl)
  have h2 := Reach.message 2 h1 (by
    intro k hk
    rcases Nat.lt_or_ge k 1 with h | h
    · exact .inr ⟨0, rfl, by omega⟩
    · exact .inl (by rw [show k = 1 by omega]; exact List.mem_cons_self))
  exact Reach.poll [1] h2 (by decide)

/-- The run of the fourth witness: height 1 is decided after height 2 was, and its event comes last. -/
def late : Task Nat Nat Nat :=
  let t := (Task.boot 10 (some 0) []).message 2
  let t := { t with node := t.node.write 2 (.decision 2 8) }
  let t := t.decided 2
  let t := { t with node := t.node.write 1 (.decision 1 7) }
  t.decided 1

/-- C54 is violated: an event for an older height moves the node past the next height, which is not decided. -/
theorem C54_next_violated : Reach 10 anyHeight anyHeight late [1, 2] (some 0) ∧ late.next = 4 ∧ ¬ Done [1, 2] (some 0) 3 := by
  refine ⟨?_, by decide, ?_⟩
  · have h0 : Reach 10 anyHeight anyHeight (Task.boot 10 (some 0) [] : Task Nat Nat Nat) [] (some 0) := .boot _
    have h1 := Reach.message 2 h0 trivial
    have h2 := Reach.write 2 (.decision 2 8) h1 (by decide) (by intro dh v h; cases h; rfl)
    have h3 := Reach.event 2 h2 (by decide) trivial
    have h4 := Reach.write 1 (.decision 1 7) h3 (by decide) (by intro dh v h; cases h; rfl)
    exact Reach.event 1 h4 (by decide) trivial
  · rintro (h | ⟨x, hx, hle⟩)
    · exact absurd h (by decide)
    · cases hx; omega

end Verif.Cons
