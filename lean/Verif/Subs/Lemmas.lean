import Verif.Subs.Model

namespace Verif.Subs

variable {items : Nat → List Nat} {B : Nat}

theorem msgs_self (chain : List Nat) (i : Nat) : msgs items chain i i = [] := by simp [msgs]

theorem msgs_append (chain : List Nat) {i j k : Nat} (h₁ : i ≤ j) (h₂ : j ≤ k) :
    msgs items chain i j ++ msgs items chain j k = msgs items chain i k := by
  unfold msgs
  rw [← List.flatMap_append]
  have h := List.range'_append (s := i) (m := j - i) (n := k - j) (step := 1)
  have e₁ : i + 1 * (j - i) = j := by omega
  have e₂ : j - i + (k - j) = k - i := by omega
  rw [e₁, e₂] at h
  rw [h]

theorem msgs_step (chain : List Nat) {i j : Nat} (h : i < j) :
    msgs items chain i j = (chain[i]?).elim [] (blockMsgs items i) ++ msgs items chain (i + 1) j := by
  rw [← msgs_append chain (Nat.le_succ i) h]
  congr 1
  simp [msgs]

theorem msgs_ext (chain : List Nat) (x : Nat) {i j : Nat} (h : j ≤ chain.length) :
    msgs items (chain ++ [x]) i j = msgs items chain i j := by
  unfold msgs
  have key : ∀ n ∈ List.range' i (j - i), (chain ++ [x])[n]? = chain[n]? := by
    intro n hn
    rw [List.mem_range'_1] at hn
    rw [List.getElem?_append_left (by omega)]
  rw [List.flatMap_def, List.flatMap_def]
  congr 1
  apply List.map_congr_left
  intro n hn
  rw [key n hn]

theorem msgs_last (chain : List Nat) {n id : Nat} (h : chain[n]? = some id) :
    msgs items chain n (n + 1) = blockMsgs items n id := by
  rw [msgs_step chain (Nat.lt_succ_self n), msgs_self, h]
  simp

/-- The first message of a range: the blocks before its block have none. -/
theorem msgs_head (chain : List Nat) : ∀ (d b e : Nat) (m : Msg) (t : List Msg), e - b = d → msgs items chain b e = m :: t →
    b ≤ m.number ∧ m.number < e ∧ msgs items chain b m.number = []
  | 0, b, e, m, t, hd, h => by
    have : msgs items chain b e = [] := by simp [msgs, hd]
    rw [this] at h
    cases h
  | d + 1, b, e, m, t, hd, h => by
    have hlt : b < e := by omega
    rw [msgs_step chain hlt] at h
    cases hc : chain[b]? with
    | none =>
      rw [hc] at h
      have ih := msgs_head chain d (b + 1) e m t (by omega) h
      refine ⟨by omega, ih.2.1, ?_⟩
      rw [msgs_step chain (by omega), hc, ih.2.2]
      rfl
    | some id =>
      rw [hc] at h
      change blockMsgs items b id ++ _ = _ at h
      cases hb : items id with
      | nil =>
        have e0 : blockMsgs items b id = [] := by simp [blockMsgs, hb]
        rw [e0] at h
        have ih := msgs_head chain d (b + 1) e m t (by omega) h
        refine ⟨by omega, ih.2.1, ?_⟩
        rw [msgs_step chain (by omega), hc, ih.2.2]
        change blockMsgs items b id ++ [] = []
        rw [e0]
        rfl
      | cons x xs =>
        have e0 : blockMsgs items b id = .item b id x :: xs.map (.item b id) := by simp [blockMsgs, hb]
        rw [e0, List.cons_append] at h
        have em := (List.cons.inj h).1
        subst em
        refine ⟨Nat.le_refl _, hlt, ?_⟩
        change msgs items chain b b = []
        exact msgs_self chain b

/-- The messages of the blocks in the receiver. -/
def flat (items : Nat → List Nat) (heads : List (Nat × Nat)) : List Msg := heads.flatMap fun h => blockMsgs items h.1 h.2

/-- How many blocks were announced. -/
def announced (s : Sys) : Nat := if s.pending = none then s.chain.length else s.chain.length - 1

/-- What is to be seen of the client's stream and of the queues in each phase.  `d` is 1 if a batch may have read a block
before it was announced, else 0. -/
def Good (items : Nat → List Nat) (d start : Nat) (s : Sys) : Prop :=
  match s.phase with
  | .catching cur => start ≤ cur ∧ cur ≤ s.chain.length ∧ cur ≤ announced s + d ∧ s.out = msgs items s.chain start cur ∧ s.heads = [] ∧ s.mid = []
  | .opening cur => start < cur ∧ cur ≤ s.chain.length ∧ cur ≤ announced s + d ∧ s.out = msgs items s.chain start cur ∧ s.heads = [] ∧ s.mid = []
  | .half cur | .waiting cur => start < cur ∧ s.out = msgs items s.chain start cur ∧
      cur ≤ s.chain.length ∧ ∃ b, cur ≤ b + d ∧ b ≤ announced s ∧ s.mid ++ flat items s.heads = msgs items s.chain b (announced s)
  | .live => s.out ++ s.mid ++ flat items s.heads = msgs items s.chain start (announced s) ∨
      (d = 1 ∧ ∃ n, start ≤ n ∧ n < announced s ∧
        s.out ++ s.mid ++ flat items s.heads = msgs items s.chain start (n + 1) ++ msgs items s.chain n (announced s))

structure Inv (items : Nat → List Nat) (d start : Nat) (s : Sys) : Prop where
  slack : d ≤ 1
  begun : start < s.chain.length
  noReorgs : s.reorgs = []
  pend : s.pending = none ∨ ∃ id, s.pending = some (.block (s.chain.length - 1) id) ∧ s.chain[s.chain.length - 1]? = some id
  good : Good items d start s

theorem announced_le (s : Sys) : announced s ≤ s.chain.length := by
  unfold announced
  split <;> omega

theorem inv_init (chain : List Nat) (u : Bool) (start d : Nat) (hd : d ≤ 1) (hs : start < chain.length) :
    Inv items d start (init chain u start) := by
  refine ⟨hd, hs, rfl, ?_, ?_⟩
  · cases u with
    | false => left; rfl
    | true =>
      right
      have hne : chain ≠ [] := by
        intro e
        rw [e] at hs
        exact absurd hs (Nat.not_lt_zero _)
      refine ⟨chain.getLast hne, ?_, ?_⟩
      · simp [init, List.getLast?_eq_some_getLast hne]
      · change chain[chain.length - 1]? = _
        rw [← List.getLast?_eq_getElem?, List.getLast?_eq_some_getLast hne]
  · change start ≤ start ∧ start ≤ chain.length ∧ start ≤ announced _ + d ∧ [] = msgs items chain start start ∧ _ ∧ _
    refine ⟨Nat.le_refl _, Nat.le_of_lt hs, ?_, (msgs_self chain start).symm, rfl, rfl⟩
    have : chain.length - 1 ≤ announced (init chain u start) := by
      unfold announced
      split
      · exact Nat.sub_le _ _
      · exact Nat.le_refl _
    omega

theorem flat_snoc (hs : List (Nat × Nat)) (n id : Nat) : flat items (hs ++ [(n, id)]) = flat items hs ++ blockMsgs items n id := by
  simp [flat]

theorem flat_cons (h : Nat × Nat) (hs : List (Nat × Nat)) : flat items (h :: hs) = blockMsgs items h.1 h.2 ++ flat items hs := by
  simp [flat]

theorem inv_commit {d start : Nat} {s : Sys} (hI : Inv items d start s) (id : Nat) (hp : s.pending = none) :
    Inv items d start { s with chain := s.chain ++ [id], pending := some (.block s.chain.length id) } := by
  have ha : announced s = s.chain.length := by simp [announced, hp]
  have ha' : announced { s with chain := s.chain ++ [id], pending := some (.block s.chain.length id) } = s.chain.length := by
    simp [announced]
  have hg := hI.good
  refine ⟨hI.slack, ?_, hI.noReorgs, ?_, ?_⟩
  · have := hI.begun
    simp
    omega
  · right
    refine ⟨id, ?_, ?_⟩ <;> simp
  · unfold Good at hg ⊢
    simp only [ha'] at *
    rw [ha] at hg
    cases hph : s.phase with
    | catching cur =>
      simp only [hph] at hg ⊢
      obtain ⟨h1, h2, h3, h4, h5, h6⟩ := hg
      refine ⟨h1, ?_, h3, ?_, h5, h6⟩
      · simp; omega
      · rw [msgs_ext _ _ h2]; exact h4
    | opening cur =>
      simp only [hph] at hg ⊢
      obtain ⟨h1, h2, h3, h4, h5, h6⟩ := hg
      refine ⟨h1, ?_, h3, ?_, h5, h6⟩
      · simp; omega
      · rw [msgs_ext _ _ h2]; exact h4
    | half cur =>
      simp only [hph] at hg ⊢
      obtain ⟨h1, h2, h3, b, h4, h5, h6⟩ := hg
      refine ⟨h1, ?_, ?_, b, h4, h5, ?_⟩
      · rw [msgs_ext _ _ h3]; exact h2
      · simp; omega
      · rw [msgs_ext _ _ (Nat.le_refl _)]; exact h6
    | waiting cur =>
      simp only [hph] at hg ⊢
      obtain ⟨h1, h2, h3, b, h4, h5, h6⟩ := hg
      refine ⟨h1, ?_, ?_, b, h4, h5, ?_⟩
      · rw [msgs_ext _ _ h3]; exact h2
      · simp; omega
      · rw [msgs_ext _ _ (Nat.le_refl _)]; exact h6
    | live =>
      simp only [hph] at hg ⊢
      rcases hg with h | ⟨hd, n, h1, h2, h3⟩
      · left
        rw [msgs_ext _ _ (Nat.le_refl _)]; exact h
      · right
        refine ⟨hd, n, h1, h2, ?_⟩
        rw [msgs_ext _ _ (Nat.le_refl _), msgs_ext _ _ h2]; exact h3

theorem inv_announce {d start : Nat} {s : Sys} (hI : Inv items d start s) (note : Note) (hp : s.pending = some note) :
    Inv items d start (announce s note) := by
  have hpend := hI.pend
  rw [hp] at hpend
  rcases hpend with h | ⟨id, h, hid⟩
  · cases h
  have hn := Option.some.inj h
  subst hn
  have hlen : 0 < s.chain.length := Nat.lt_of_le_of_lt (Nat.zero_le _) hI.begun
  have ha : announced s = s.chain.length - 1 := by simp [announced, hp]
  have ha' : announced (announce s (.block (s.chain.length - 1) id)) = s.chain.length := by
    simp [announced, announce]
  have hl : s.chain.length = s.chain.length - 1 + 1 := by omega
  have hlast : msgs items s.chain (s.chain.length - 1) s.chain.length = blockMsgs items (s.chain.length - 1) id := by
    have := msgs_last (items := items) s.chain hid
    rw [← hl] at this
    exact this
  have hg := hI.good
  refine ⟨hI.slack, hI.begun, hI.noReorgs, Or.inl rfl, ?_⟩
  unfold Good at hg ⊢
  rw [ha'] 
  rw [ha] at hg
  change (match s.phase with | .catching cur => _ | .opening cur => _ | .half cur => _ | .waiting cur => _ | .live => _)
  cases hph : s.phase with
  | catching cur =>
    simp only [hph] at hg ⊢
    obtain ⟨h1, h2, h3, h4, h5, h6⟩ := hg
    refine ⟨h1, h2, by omega, h4, ?_, h6⟩
    simp [announce, hph, Phase.hearsHeads, h5]
  | opening cur =>
    simp only [hph] at hg ⊢
    obtain ⟨h1, h2, h3, h4, h5, h6⟩ := hg
    refine ⟨h1, h2, by omega, h4, ?_, h6⟩
    simp [announce, hph, Phase.hearsHeads, h5]
  | half cur =>
    simp only [hph] at hg ⊢
    obtain ⟨h1, h2, h3, b, h4, h5, h6⟩ := hg
    refine ⟨h1, h2, h3, b, h4, by omega, ?_⟩
    simp only [announce, hph, Phase.hearsHeads, if_true]
    rw [flat_snoc, ← List.append_assoc, h6, ← hlast, msgs_append _ h5 (Nat.sub_le _ _)]
  | waiting cur =>
    simp only [hph] at hg ⊢
    obtain ⟨h1, h2, h3, b, h4, h5, h6⟩ := hg
    refine ⟨h1, h2, h3, b, h4, by omega, ?_⟩
    simp only [announce, hph, Phase.hearsHeads, if_true]
    rw [flat_snoc, ← List.append_assoc, h6, ← hlast, msgs_append _ h5 (Nat.sub_le _ _)]
  | live =>
    simp only [hph] at hg ⊢
    have hb := hI.begun
    rcases hg with h | ⟨hd, n, h1, h2, h3⟩
    · left
      simp only [announce, hph, Phase.hearsHeads, if_true]
      rw [flat_snoc, ← List.append_assoc, h, ← hlast, msgs_append _ (by omega) (Nat.sub_le _ _)]
    · right
      refine ⟨hd, n, h1, by omega, ?_⟩
      simp only [announce, hph, Phase.hearsHeads, if_true]
      rw [flat_snoc, ← List.append_assoc, h3, ← hlast, List.append_assoc, msgs_append _ (by omega) (Nat.sub_le _ _)]

theorem inv_batch {d start : Nat} {s : Sys} {cur : Nat} (hI : Inv items d start s) (hB : 0 < B) (hph : s.phase = .catching cur)
    (hd : d = 1 ∨ s.pending = none) : Inv items d start (batch items B s cur) := by
  have hg := hI.good
  unfold Good at hg
  simp only [hph] at hg
  obtain ⟨h1, h2, h3, h4, h5, h6⟩ := hg
  have hlen : s.chain.length ≤ announced s + d := by
    unfold announced
    rcases hd with e | e
    · split <;> omega
    · simp [e]
  unfold batch
  split
  · rename_i hlt
    have key : start < min (cur + B) s.chain.length := by
      have := hI.begun
      omega
    have hout : s.out ++ msgs items s.chain cur (min (cur + B) s.chain.length) =
        msgs items s.chain start (min (cur + B) s.chain.length) := by
      rw [h4, msgs_append _ h1 (by omega)]
    refine ⟨hI.slack, hI.begun, hI.noReorgs, hI.pend, ?_⟩
    unfold Good
    by_cases hn : min (cur + B) s.chain.length < cur + B
    · simp only [if_pos hn]
      refine ⟨key, Nat.min_le_right _ _, ?_, hout, h5, h6⟩
      exact Nat.le_trans (Nat.min_le_right _ _) hlen
    · simp only [if_neg hn]
      refine ⟨Nat.le_of_lt key, Nat.min_le_right _ _, ?_, hout, h5, h6⟩
      exact Nat.le_trans (Nat.min_le_right _ _) hlen
  · rename_i hlt
    refine ⟨hI.slack, hI.begun, hI.noReorgs, hI.pend, ?_⟩
    have := hI.begun
    exact ⟨by omega, h2, h3, h4, h5, h6⟩

theorem inv_first {d start : Nat} {s : Sys} {cur : Nat} {m : Msg} {rest : List Msg} (hI : Inv items d start s)
    (hph : s.phase = .waiting cur) (hm : s.mid = m :: rest) : Inv items d start (firstMsg items s cur m rest) := by
  have hg := hI.good
  unfold Good at hg
  simp only [hph] at hg
  obtain ⟨h1, h2, h3, b, h4, h5, h6⟩ := hg
  rw [hm, List.cons_append] at h6
  obtain ⟨k1, k2, k3⟩ := msgs_head s.chain _ b (announced s) m _ rfl h6.symm
  have hrest : m :: (rest ++ flat items s.heads) = msgs items s.chain m.number (announced s) := by
    rw [h6, ← msgs_append s.chain k1 (Nat.le_of_lt k2), k3]
    rfl
  refine ⟨hI.slack, hI.begun, hI.noReorgs, hI.pend, ?_⟩
  change _ ∨ _
  change s.out ++ (if cur < m.number then msgs items s.chain cur m.number else []) ++ [m] ++ rest ++ flat items s.heads =
      msgs items s.chain start (announced s) ∨ (d = 1 ∧ ∃ n, start ≤ n ∧ n < announced s ∧
      s.out ++ (if cur < m.number then msgs items s.chain cur m.number else []) ++ [m] ++ rest ++ flat items s.heads =
      msgs items s.chain start (n + 1) ++ msgs items s.chain n (announced s))
  have e : ∀ l : List Msg, l ++ [m] ++ rest ++ flat items s.heads = l ++ (m :: (rest ++ flat items s.heads)) := by
    intro l
    simp
  rw [e, hrest, h2]
  by_cases hc : cur < m.number
  · left
    rw [if_pos hc, msgs_append _ (Nat.le_of_lt h1) (Nat.le_of_lt hc), msgs_append _ (by omega) (Nat.le_of_lt k2)]
  · rw [if_neg hc, List.append_nil]
    have hs := hI.slack
    by_cases hq : cur = m.number
    · left
      rw [hq, msgs_append _ (by omega) (Nat.le_of_lt k2)]
    · right
      have : cur = m.number + 1 := by omega
      refine ⟨by omega, m.number, by omega, k2, ?_⟩
      rw [this]

theorem inv_step {d start : Nat} {s t : Sys} {a : Act} (hB : 0 < B) (hI : Inv items d start s) (hp : a.plain = true)
    (hc : d = 1 ∨ (a = .batch → s.pending = none)) (h : step items B s a = some t) : Inv items d start t := by
  cases a with
  | reorg k => cases hp
  | failCommit id => cases hp
  | commit id =>
    simp only [step] at h
    split at h
    · rename_i e
      cases h
      exact inv_commit hI id e
    · cases h
  | announce =>
    simp only [step] at h
    cases hpe : s.pending with
    | none =>
      rw [hpe] at h
      cases h
    | some note =>
      rw [hpe] at h
      cases h
      exact inv_announce hI note hpe
  | batch =>
    simp only [step] at h
    cases hph : s.phase with
    | catching cur =>
      simp only [hph] at h
      cases h
      exact inv_batch hI hB hph (hc.imp id fun k => k rfl)
    | _ =>
      simp only [hph] at h
      cases h
  | openHeads =>
    simp only [step] at h
    cases hph : s.phase with
    | opening cur =>
      simp only [hph] at h
      cases h
      have hg := hI.good
      unfold Good at hg
      simp only [hph] at hg
      obtain ⟨h1, h2, h3, h4, h5, h6⟩ := hg
      refine ⟨hI.slack, hI.begun, hI.noReorgs, hI.pend, ?_⟩
      refine ⟨h1, h4, h2, announced s, h3, Nat.le_refl _, ?_⟩
      change s.mid ++ flat items s.heads = msgs items s.chain (announced s) (announced s)
      rw [h5, h6, msgs_self]
      rfl
    | _ =>
      simp only [hph] at h
      cases h
  | openReorgs =>
    simp only [step] at h
    cases hph : s.phase with
    | half cur =>
      simp only [hph] at h
      cases h
      have hg := hI.good
      unfold Good at hg
      simp only [hph] at hg
      exact ⟨hI.slack, hI.begun, hI.noReorgs, hI.pend, hg⟩
    | _ =>
      simp only [hph] at h
      cases h
  | takeHead =>
    simp only [step] at h
    split at h
    · rename_i hh
      cases hhd : s.heads with
      | nil =>
        simp only [hhd] at h
        cases h
      | cons x xs =>
        simp only [hhd] at h
        cases h
        have hg := hI.good
        unfold Good at hg
        refine ⟨hI.slack, hI.begun, hI.noReorgs, hI.pend, ?_⟩
        unfold Good
        cases hph : s.phase with
        | waiting cur =>
          simp only [hph] at hg ⊢
          obtain ⟨h1, h2, h3, b, h4, h5, h6⟩ := hg
          refine ⟨h1, h2, h3, b, h4, h5, ?_⟩
          rw [hhd, flat_cons] at h6
          rw [List.append_assoc]
          exact h6
        | live =>
          simp only [hph] at hg ⊢
          have e : s.out ++ (s.mid ++ blockMsgs items x.1 x.2) ++ flat items xs = s.out ++ s.mid ++ flat items s.heads := by
            rw [hhd, flat_cons]
            simp
          rw [e]
          exact hg
        | _ =>
          rw [hph] at hh
          cases hh
    · cases h
  | takeReorg =>
    simp only [step] at h
    split at h
    · rw [hI.noReorgs] at h
      cases h
    · cases h
  | first =>
    simp only [step] at h
    cases hph : s.phase with
    | waiting cur =>
      cases hm : s.mid with
      | nil =>
        simp only [hph, hm] at h
        cases h
      | cons m rest =>
        simp only [hph, hm] at h
        cases h
        exact inv_first hI hph hm
    | _ =>
      simp only [hph] at h
      cases h
  | forward =>
    simp only [step] at h
    cases hph : s.phase with
    | live =>
      cases hm : s.mid with
      | nil =>
        simp only [hph, hm] at h
        cases h
      | cons m rest =>
        simp only [hph, hm] at h
        cases h
        have hg := hI.good
        unfold Good at hg
        refine ⟨hI.slack, hI.begun, hI.noReorgs, hI.pend, ?_⟩
        unfold Good
        simp only [hph] at hg ⊢
        have e : s.out ++ [m] ++ rest ++ flat items s.heads = s.out ++ s.mid ++ flat items s.heads := by
          rw [hm]
          simp
        rw [e]
        exact hg
    | _ =>
      simp only [hph] at h
      cases h

theorem inv_run {d start : Nat} (hB : 0 < B) : ∀ (acts : List Act) {s t : Sys}, Inv items d start s →
    (∀ a ∈ acts, a.plain = true) → (d = 1 ∨ Calm items B s acts) → run items B s acts = some t → Inv items d start t
  | [], s, t, hI, _, _, h => by
    cases h
    exact hI
  | a :: as, s, t, hI, hp, hc, h => by
    unfold run at h
    cases hs : step items B s a with
    | none =>
      rw [hs] at h
      cases h
    | some u =>
      rw [hs] at h
      have hI' := inv_step hB hI (hp a List.mem_cons_self) (hc.imp id fun k => k.1) hs
      exact inv_run hB as hI' (fun b hb => hp b (List.mem_cons_of_mem _ hb)) (hc.imp id fun k => k.2 u hs) h

end Verif.Subs
