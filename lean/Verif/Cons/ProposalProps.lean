import Verif.Cons.ProposalLemmas

/-!
# Proposals: executed at once or deferred, what is stored, and what ends the task
-/
namespace Verif.Proposals

variable {X C K : Type} [DecidableEq C]

/-! ## C59: the order of arrival does not matter -/

theorem atOnce_exact (W : World X C K) (hseq : W.Sequential) (p : Proposal X C) (h : Nat) (hp : p.WellFormed h)
    (hg : p.Good W) (known : Nat → Bool) (hk : known (h - 1) = true) (s : Slot X C K) (h1 : s.parts = none) (h2 : s.deferred = none) :
    process W h s (atOnce known p.parts) =
      some (⟨some (finOf p.init p.batches p.fin), none, none, true,
        some ⟨p.init.height, some p.init, p.executed, p.txs.filterMap W.declares⟩⟩, [p.report]) := by
  obtain ⟨i, bs, f⟩ := p
  obtain ⟨ha, hpos, hmax, hs, hf⟩ := hp
  obtain ⟨g1, g2, g3⟩ := hg
  obtain ⟨sp, st, sd, se, sf⟩ := s
  simp only at h1 h2
  subst h1 h2
  simp only [Proposal.txs, Proposal.executed] at *
  simp only [atOnce, Proposal.parts, List.map_cons, process, step, init_after W hpos hmax hk i ha, g1, if_true]
  have := process_rest W hseq hpos hmax hk i [] bs f se sf hf (by simpa using hs) (.inr hs) (.inr (by simpa using g2)) (by simpa using g3)
  simp only [List.flatten_nil, List.filterMap_nil, List.nil_append] at this
  rw [this]
  simp [Proposal.report]

/-- **C59**. What becomes of a block info that opens a stream. A height that is not a block number is refused, without
ending the task. The check is postponed exactly when there is a parent that is not known yet; otherwise it happens at once,
in particular for the first block. -/
theorem C59_init (W : World X C K) (known : Nat → Bool) (h : Nat) (i : Init) :
    handlePart W known h ({} : Slot X C K) (.init i) =
      if maxNumber < i.height then .skipped {}
      else if i.height ≠ 0 ∧ known (i.height - 1) = false then
        .ok ⟨some (accOf i []), some (.blockInfo i), none, false, none⟩ none
      else if W.infoOk i then .ok ⟨some (accOf i []), some (.batches ⟨i, [], []⟩), none, false, none⟩ none
      else .skipped {} := by
  by_cases hm : maxNumber < i.height
  · simp [handlePart, accept_init, onPart, onInit, hm]
  · by_cases h0 : i.height = 0
    · cases hi : W.infoOk i <;>
        simp [handlePart, accept_init, onPart, onInit, shouldDefer, validateInfo, h0, hi, Except.bind, Except.map]
    · have hsd := shouldDefer_eq (known := known) h0 (Nat.not_lt.1 hm)
      cases hk : known (i.height - 1) with
      | false => simp [handlePart, accept_init, onPart, onInit, hm, h0, hsd, hk, Except.bind]
      | true =>
        cases hi : W.infoOk i <;>
          simp [handlePart, accept_init, onPart, onInit, validateInfo, hm, h0, hsd, hk, hi, Except.bind, Except.map]

/-- **C59** (at once, accepted). A good proposal whose parent is known when its parts arrive is reported exactly once,
with its commitment and origin, and the block it stands for is kept. -/
theorem C59_accepted (W : World X C K) (hseq : W.Sequential) (p : Proposal X C) (h : Nat) (hp : p.WellFormed h)
    (hg : p.Good W) (known : Nat → Bool) (hk : known (h - 1) = true) (s : Slot X C K) (h1 : s.parts = none) (h2 : s.deferred = none) :
    ∃ t b, process W h s (atOnce known p.parts) = some (t, [p.report]) ∧ t.final = some b ∧ p.Stored W b := by
  refine ⟨_, _, atOnce_exact W hseq p h hp hg known hk s h1 h2, rfl, rfl, rfl, rfl, ?_⟩
  intro hl
  simp [Proposal.executed, List.take_of_length_le hl]

/-- **C59** (at once, refused). A proposal that is not good is never reported, no block is kept for it and the task goes on. -/
theorem C59_refused (W : World X C K) (hseq : W.Sequential) (p : Proposal X C) (h : Nat) (hp : p.WellFormed h)
    (hg : ¬ p.Good W) (known : Nat → Bool) (hk : known (h - 1) = true) (s : Slot X C K) (h1 : s.parts = none) (h2 : s.deferred = none) :
    ∃ t, process W h s (atOnce known p.parts) = some (t, []) ∧ t.final = s.final := by
  obtain ⟨i, bs, f⟩ := p
  obtain ⟨ha, hpos, hmax, hs, hf⟩ := hp
  obtain ⟨sp, st, sd, se, sf⟩ := s
  simp only at h1 h2
  subst h1 h2
  simp only at ha hs hf
  have hnoinit : ∀ q ∈ bs.map Part.batch ++ [Part.fin f], ∀ j, q ≠ .init j := by
    intro q hq j e
    subst e
    simp at hq
  simp only [atOnce, Proposal.parts, List.map_cons, process, step, init_after W hpos hmax hk i ha]
  by_cases g1 : W.infoOk i = true
  · simp only [g1, if_true, Option.toList_none, List.nil_append]
    cases g2 : W.execOk i [] bs.flatten with
    | false =>
      obtain ⟨e', he'⟩ := process_batches_bad W hseq hpos hmax hk i sf bs hf hs [] ⟨i, [], []⟩ se g2
      rw [List.map_append, process_append, he']
      refine ⟨⟨none, none, none, e', sf⟩, ?_, rfl⟩
      rw [Option.bind_some, process_purged W [Part.fin f] (by simp) _ rfl]
      rfl
    | true =>
      have g3 : W.commitment i (bs.flatten.take f.count) ≠ f.commitment := by
        intro g3; exact hg ⟨g1, g2, g3⟩
      rw [List.map_append, process_append, process_batches W hseq hpos hmax hk i sf bs hf [] ⟨i, [], []⟩ se g2]
      have hb : bs.isEmpty = false := by simpa using hs
      refine ⟨⟨none, none, none, true, sf⟩, ?_, rfl⟩
      simp only [hb, Bool.not_false, Bool.or_true, List.nil_append]
      simp only [Option.bind_some, List.map_cons, List.map_nil, process, step, fin_after W hpos hmax hk i bs hs f, g3, if_false]
      rfl
  · simp only [g1]
    refine ⟨⟨none, st, none, se, sf⟩, ?_, rfl⟩
    exact process_purged W _ hnoinit _ rfl

omit [DecidableEq C] in
private theorem split_parts (p : Proposal X C) (k : Nat) (hk : k ≤ p.batches.length) :
    p.parts.take (k + 1) = .init p.init :: (p.batches.take k).map .batch ∧
      p.parts.drop (k + 1) = (p.batches.drop k).map .batch ++ [.fin p.fin] := by
  constructor
  · simp only [Proposal.parts, List.take_succ_cons, List.cons.injEq, true_and]
    rw [List.take_append_of_le_length (by simpa using hk), List.map_take]
  · simp only [Proposal.parts, List.drop_succ_cons]
    rw [List.drop_append_of_le_length (by simpa using hk), List.map_drop]

omit [DecidableEq C] in
private theorem late_eq (before after : Nat → Bool) (a c : Nat) (ps : List (Part X C)) :
    late before after a (a + c) ps = (ps.take a).map (.part before) ++ (((ps.drop a).take c).map (.part after) ++
      .parent after true :: ((ps.drop a).drop c).map (.part after)) := by
  unfold late
  rw [List.append_assoc, List.drop_drop, List.drop_take, Nat.add_sub_cancel_left]

/-- **C59** partial. Suppose the parent is decided after `a` parts of a good proposal have arrived and the task hears of
it after `b ≥ a` parts. Unless `a` is one, the outcome is the same as if the parent had been known from the start: one
report and the same block. Missing: `a = 1`, where the proposal is lost (`C59_lost_violated`), and lower rounds of the height. -/
theorem C59_deferred_partial (W : World X C K) (hseq : W.Sequential) (p : Proposal X C) (h : Nat) (hp : p.WellFormed h)
    (hg : p.Good W) (before after : Nat → Bool) (hl : Learns before after h) (s : Slot X C K) (h1 : s.parts = none) (h2 : s.deferred = none)
    (a b : Nat) (hab : a ≤ b) (ha : a ≠ 1) :
    ∃ t t', process W h s (late before after a b p.parts) = some (t, [p.report]) ∧
      process W h s (atOnce after p.parts) = some (t', [p.report]) ∧ t.final = t'.final := by
  have hgood := atOnce_exact W hseq p h hp hg after hl.after s h1 h2
  obtain ⟨c, rfl⟩ := Nat.exists_eq_add_of_le hab
  rw [late_eq, hgood]
  suffices hq : ∃ t, process W h s ((p.parts.take a).map (.part before) ++ (((p.parts.drop a).take c).map (.part after) ++
      .parent after true :: ((p.parts.drop a).drop c).map (.part after))) = some (t, [p.report]) ∧
      t.final = some ⟨p.init.height, some p.init, p.executed, p.txs.filterMap W.declares⟩ by
    obtain ⟨t, e1, e2⟩ := hq
    exact ⟨t, _, e1, rfl, e2⟩
  have hpos := hp.pos
  have hmax := hp.max
  by_cases ha0 : a = 0
  · subst ha0
    simp only [List.take_zero, List.map_nil, List.nil_append, List.drop_zero]
    rw [process_insert W hpos hmax hl.after true _ _ s h2, List.take_append_drop]
    exact ⟨_, hgood, rfl⟩
  obtain ⟨k, rfl⟩ : ∃ k, a = k + 1 := ⟨a - 1, by omega⟩
  have hk1 : k ≠ 0 := by omega
  rw [process_append]
  by_cases hk : k ≤ p.batches.length
  · obtain ⟨e1, e2⟩ := split_parts p k hk
    have hne : p.batches.take k ≠ [] := by
      have := hp.some
      cases hb : p.batches with
      | nil => exact absurd hb this
      | cons x xs => cases k <;> simp_all
    have hf1 : ∀ xs ∈ p.batches.take k, xs ≠ [] := fun xs hx => hp.full xs (List.mem_of_mem_take hx)
    have hf2 : ∀ xs ∈ p.batches.drop k, xs ≠ [] := fun xs hx => hp.full xs (List.mem_of_mem_drop hx)
    have htx : (p.batches.take k).flatten ≠ [] := by
      cases hb : p.batches.take k with
      | nil => exact absurd hb hne
      | cons x xs =>
        have := hf1 x (by simp [hb])
        simp [this]
    have hall : (p.batches.take k ++ p.batches.drop k) = p.batches := List.take_append_drop k _
    have hall' : (p.batches.take k).flatten ++ (p.batches.drop k).flatten = p.txs := by
      rw [← List.flatten_append, hall]; rfl
    have hex := hg.exec
    rw [← hall', hseq, Bool.and_eq_true, List.nil_append] at hex
    rw [e1, e2, process_deferred_init W hpos hmax hl.before p.init hp.height s h1 h2 _ hne hf1]
    simp only [Option.bind_some, List.nil_append]
    have hrest := fun e fi (he : e = true ∨ p.batches.drop k ≠ []) =>
      process_rest W hseq hpos hmax hl.after p.init (p.batches.take k) (p.batches.drop k) p.fin e fi hf2
        (by rw [hall]; exact hp.some) he (.inr hex.2) (by rw [hall]; exact hg.commit)
    rw [hall] at hrest
    cases c with
    | zero =>
      simp only [List.take_zero, List.map_nil, List.nil_append, List.drop_zero, process, step]
      rw [parent_resume W hl.after p.init hp.height _ _ htx _ _ hg.info hex.1]
      simp only
      rw [hrest true s.final (.inl rfl)]
      exact ⟨_, rfl, rfl⟩
    | succ c =>
      cases hb : p.batches.drop k with
      | nil =>
        rw [hb, List.append_nil] at hall
        simp only [List.map_nil, List.nil_append, List.take_succ_cons, List.take_nil, List.map_cons, List.cons_append,
          List.drop_succ_cons, List.drop_nil, process, step]
        have hall2 : (p.batches.take k).flatten = p.txs := by rw [hall]; rfl
        rw [hall2] at htx ⊢
        rw [hall, fin_resume W hpos hmax hl.after p.init hp.height _ hp.some p.fin _ htx _ _ hg.info hg.exec hg.commit]
        simp only
        rw [parent_noop W true _ rfl]
        refine ⟨_, rfl, ?_⟩
        simp [hp.height, Proposal.executed]
      | cons xs bs =>
        have hxs : xs ≠ [] := hf2 xs (by simp [hb])
        simp only [List.map_cons, List.cons_append, List.take_succ_cons, List.drop_succ_cons, process, step]
        have hxe : W.execOk p.init [] ((p.batches.take k).flatten ++ xs) = true ∧
            W.execOk p.init ((p.batches.take k).flatten ++ xs) bs.flatten = true := by
          have := hg.exec
          rw [← hall', hb, List.flatten_cons, ← List.append_assoc, hseq, Bool.and_eq_true, List.nil_append] at this
          exact this
        rw [batch_resume W hpos hmax hl.after p.init hp.height _ xs hxs _ _ _ hg.info hxe.1]
        simp only
        have hcat : (p.batches.take k ++ [xs]) ++ bs = p.batches := by
          rw [List.append_assoc]; simpa [hb] using hall
        rw [process_insert W hpos hmax hl.after true _ _ _ rfl, List.take_append_drop]
        have := process_rest W hseq hpos hmax hl.after p.init (p.batches.take k ++ [xs]) bs p.fin true s.final
          (fun x hx => hf2 x (by simp [hb, hx])) (by simp) (.inl rfl) (.inr (by simpa using hxe.2))
          (by rw [hcat]; exact hg.commit)
        rw [hcat] at this
        simp only [List.flatten_append, List.flatten_cons, List.flatten_nil, List.append_nil] at this
        rw [this]
        exact ⟨_, rfl, rfl⟩
  · have hlen : p.parts.length ≤ k + 1 := by
      simp [Proposal.parts]; omega
    rw [List.take_of_length_le hlen, List.drop_of_length_le hlen]
    simp only [List.take_nil, List.drop_nil, List.map_nil, List.nil_append]
    have htx : p.batches.flatten ≠ [] := by
      cases hb : p.batches with
      | nil => exact absurd hb hp.some
      | cons x xs =>
        have := hp.full x (by simp [hb])
        simp [this]
    have e : p.parts = (.init p.init :: p.batches.map .batch) ++ [.fin p.fin] := rfl
    rw [e, List.map_append, process_append, process_deferred_init W hpos hmax hl.before p.init hp.height s h1 h2 _ hp.some hp.full]
    simp only [Option.bind_some, List.map_cons, List.map_nil, process, step,
      fin_before W hpos hmax hl.before p.init _ hp.some]
    simp only [Option.getD_some, Option.map_some, Option.toList_none, List.append_nil, Option.bind_some]
    rw [parent_final W hl.after p.init hp.height _ _ htx, if_pos ⟨hg.info, hg.exec, hg.commit⟩]
    refine ⟨_, rfl, ?_⟩
    simp [hp.height, Proposal.executed, Proposal.txs]

/-- **C59** violated: when the parent is decided between the block info and the first batch, every good proposal is
lost. Nothing is reported and no block is kept, whenever the task hears about the parent. -/
theorem C59_lost_violated (W : World X C K) (p : Proposal X C) (h : Nat) (hp : p.WellFormed h)
    (before after : Nat → Bool) (hl : Learns before after h) (s : Slot X C K) (h1 : s.parts = none) (h2 : s.deferred = none)
    (b : Nat) (hb : 1 ≤ b) :
    ∃ t, process W h s (late before after 1 b p.parts) = some (t, []) ∧ t.final = s.final := by
  obtain ⟨c, rfl⟩ := Nat.exists_eq_add_of_le hb
  obtain ⟨i, bs, f⟩ := p
  obtain ⟨ha, hpos, hmax, hs, hf⟩ := hp
  obtain ⟨sp, st, sd, se, sf⟩ := s
  simp only at h1 h2
  subst h1 h2
  simp only at ha hs hf
  rw [late_eq]
  simp only [Proposal.parts, List.take_succ_cons, List.take_zero, List.drop_succ_cons, List.drop_zero, List.map_cons, List.map_nil,
    List.cons_append, List.nil_append, process, step, init_before W hpos hmax hl.before i ha]
  rw [process_insert W hpos hmax hl.after true _ _ _ rfl, List.take_append_drop]
  cases bs with
  | nil => exact absurd rfl hs
  | cons xs bs =>
    simp only [List.map_cons, List.cons_append, process, step, batch_blocked W hpos hmax hl.after i [] xs (hf xs (by simp))]
    refine ⟨⟨none, none, none, se, sf⟩, ?_, rfl⟩
    have hpg : process W h (⟨none, none, none, se, sf⟩ : Slot X C K)
        ((bs.map Part.batch ++ [Part.fin f]).map (.part after)) = some (⟨none, none, none, se, sf⟩, []) := by
      apply process_purged W _ ?_ _ rfl
      intro q hq j e
      subst e
      simp at hq
    rw [hpg]
    rfl

/-- **C60** violated by a bad proposal that was deferred: every complete proposal that is not good ends the task when its
parent is decided. The same proposal is just skipped if the parent is known (`C59_refused`). -/
theorem C60_deferred_violated (W : World X C K) (p : Proposal X C) (h : Nat) (hp : p.WellFormed h)
    (hg : ¬ p.Good W) (before after : Nat → Bool) (hl : Learns before after h) (s : Slot X C K) (h1 : s.parts = none) (h2 : s.deferred = none) :
    process W h s (late before after p.parts.length p.parts.length p.parts) = none := by
  have hpos := hp.pos
  have hmax := hp.max
  have := late_eq before after p.parts.length 0 p.parts
  rw [Nat.add_zero] at this
  rw [this]
  rw [List.take_length, List.drop_length]
  simp only [List.take_nil, List.drop_nil, List.map_nil, List.nil_append]
  have htx : p.batches.flatten ≠ [] := by
    cases hb : p.batches with
    | nil => exact absurd hb hp.some
    | cons x xs =>
      have := hp.full x (by simp [hb])
      simp [this]
  have e : p.parts = (.init p.init :: p.batches.map .batch) ++ [.fin p.fin] := rfl
  rw [e, List.map_append, process_append, process_append,
    process_deferred_init W hpos hmax hl.before p.init hp.height s h1 h2 _ hp.some hp.full]
  simp only [Option.bind_some, List.map_cons, List.map_nil, process, step,
    fin_before W hpos hmax hl.before p.init _ hp.some]
  simp only [Option.getD_some, Option.map_some, Option.toList_none, List.append_nil, Option.bind_some]
  rw [parent_final W hl.after p.init hp.height _ _ htx, if_neg]
  · rfl
  · rintro ⟨g1, g2, g3⟩
    exact hg ⟨g1, g2, g3⟩

end Verif.Proposals
