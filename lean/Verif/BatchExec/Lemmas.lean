import Verif.BatchExec.Spec

/-!
# Executing a proposal in batches: lemmas
-/

namespace Verif.BatchExec

variable (lib : Library)

theorem outcomes_length (l before : List Tx) : (outcomes lib before l).length = l.length := by
  induction l generalizing before with
  | nil => rfl
  | cons t l ih => simp [outcomes, ih]

theorem outcomes_get (l before : List Tx) (i : Nat) (h : i < l.length) :
    (outcomes lib before l)[i]? = some (lib (before ++ l.take (i + 1))) := by
  induction l generalizing before i with
  | nil => simp at h
  | cons t l ih =>
    cases i with
    | zero => simp [outcomes]
    | succ i =>
      have := ih (before ++ [t]) i (by simpa using h)
      simpa [outcomes] using this

/-- All results of a batch without an error. -/
theorem collect_ok (l : List (Option Content)) (k : Nat) (h : (collect k l).2 = true) :
    (collect k l).1.length = l.length ∧
    ∀ i, i < l.length → ∃ c, l[i]? = some (some c) ∧ (collect k l).1[i]? = some (k + i, c) := by
  induction l generalizing k with
  | nil => simp [collect]
  | cons o l ih =>
    cases o with
    | none => simp [collect] at h
    | some c =>
      have h' : (collect (k + 1) l).2 = true := h
      obtain ⟨h1, h2⟩ := ih (k + 1) h'
      refine ⟨by simp [collect, h1], ?_⟩
      intro i hi
      cases i with
      | zero => exact ⟨c, rfl, by simp [collect]⟩
      | succ i =>
        obtain ⟨c', e1, e2⟩ := h2 i (by simpa using hi)
        refine ⟨c', by simpa using e1, ?_⟩
        show (collect (k + 1) l).1[i]? = _
        rw [e2]
        congr 2
        omega

theorem makeReceipts_length (rs : List (Nat × Content)) (ts : List Tx) (k : Nat) (h : rs.length = ts.length) :
    (makeReceipts k rs ts).length = ts.length := by
  induction rs generalizing ts k with
  | nil => cases ts with
    | nil => rfl
    | cons t ts => simp at h
  | cons r rs ih => cases ts with
    | nil => simp at h
    | cons t ts => simp [makeReceipts, ih ts (k + 1) (by simpa using h)]

theorem makeReceipts_get (rs : List (Nat × Content)) (ts : List Tx) (k i : Nat) (r : Nat × Content) (t : Tx)
    (hr : rs[i]? = some r) (ht : ts[i]? = some t) :
    (makeReceipts k rs ts)[i]? = some ⟨t.hash, k + i, r.2.receipt⟩ := by
  induction rs generalizing ts k i with
  | nil => simp at hr
  | cons r' rs ih => cases ts with
    | nil => simp at ht
    | cons t' ts =>
      cases i with
      | zero =>
        simp at hr ht
        subst hr ht
        rfl
      | succ i =>
        have := ih ts (k + 1) i (by simpa using hr) (by simpa using ht)
        show (makeReceipts (k + 1) rs ts)[i]? = _
        rw [this]
        congr 2
        omega

/-- What an executor returns for a batch without an error. -/
theorem execute_ok (x x' : Executor) (txs : List Tx) (rs : List (Nat × Content)) (hne : txs ≠ [])
    (h : x.execute lib txs = (x', some rs)) :
    x'.added = x.added ++ txs ∧ rs.length = txs.length ∧
    ∀ i, i < txs.length → ∃ c, lib (x.added ++ txs.take (i + 1)) = some c ∧ rs[i]? = some (x.total + i, c) := by
  unfold Executor.execute at h
  rw [if_neg hne] at h
  by_cases hc : (collect x.total (outcomes lib x.added txs)).2 = true
  · simp only [hc, if_true] at h
    obtain ⟨h1, h2⟩ := collect_ok _ _ hc
    rw [outcomes_length] at h1
    have e1 := congrArg (fun p => p.1.added) h
    have e2 := congrArg Prod.snd h
    simp at e1 e2
    subst e2
    refine ⟨e1.symm, h1, ?_⟩
    intro i hi
    obtain ⟨c, a, b⟩ := h2 i (by rw [outcomes_length]; exact hi)
    rw [outcomes_get lib txs x.added i hi] at a
    exact ⟨c, by simpa using a, b⟩
  · simp only [hc] at h
    have e2 := congrArg Prod.snd h
    simp at e2

/-- What a batch without an error does to a stage. -/
theorem batch_ok (s s' : Stage) (txs : List Tx) (hne : txs ≠ []) (h : s.batch lib txs = (s', true)) :
    ∃ x x' rs, x = s.executor.getD ⟨[], [], 0⟩ ∧ x.execute lib txs = (x', some rs) ∧
      s'.txs = s.txs ++ txs ∧ s'.receipts = s.receipts ++ makeReceipts s.txs.length rs txs ∧
      s'.events = s.events ++ rs.map (·.2.events) ∧ s'.executor = some x' := by
  unfold Stage.batch at h
  rw [if_neg hne] at h
  by_cases hv : txs.all (·.valid) = true
  · rw [if_pos hv] at h
    generalize hx : (s.executor.getD ⟨[], [], 0⟩).execute lib txs = p at h
    obtain ⟨x', o⟩ := p
    cases o with
    | none => simp [hx] at h
    | some rs =>
      simp only [hx] at h
      have e := congrArg Prod.fst h
      simp only at e
      subst e
      exact ⟨_, x', rs, rfl, hx, rfl, rfl, rfl, rfl⟩
  · rw [if_neg hv] at h
    simp at h

/-- A stage and its executor hold the same transactions, with the outcomes of executing them. -/
def Full (s : Stage) : Prop :=
  (s.executor.getD ⟨[], [], 0⟩).added = s.txs ∧ AsExecuted lib s.txs s

theorem full_new : Full lib Stage.new := ⟨rfl, rfl, rfl, rfl, rfl, by simp [Stage.new]⟩

theorem full_batch (s s' : Stage) (b : List Tx) (h : Full lib s) (he : s.batch lib b = (s', true)) :
    Full lib s' ∧ s'.txs = s.txs ++ b := by
  by_cases hne : b = []
  · subst hne
    simp [Stage.batch] at he
    subst he
    exact ⟨h, by simp⟩
  · obtain ⟨x, x', rs, hx, hex, e1, e2, e3, e4⟩ := batch_ok lib s s' b hne he
    obtain ⟨hadd, _, hcom, hl1, hl2, hget⟩ := h
    obtain ⟨a1, a2, a3⟩ := execute_ok lib x x' b rs hne hex
    rw [← hx] at hadd
    rw [hadd] at a1 a3
    refine ⟨⟨by rw [e4, e1]; exact a1, rfl, ?_, ?_, ?_, ?_⟩, e1⟩
    · unfold Stage.committed
      rw [e4]
      show x'.added.take s'.txs.length = s'.txs
      rw [a1, e1, List.take_length]
    · rw [e2, e1, List.length_append, List.length_append, hl1, makeReceipts_length rs b _ a2]
    · rw [e3, e1, List.length_append, List.length_append, hl2, List.length_map, a2]
    · intro i t ht
      rw [e1] at ht ⊢
      by_cases hi : i < s.txs.length
      · rw [List.getElem?_append_left hi] at ht
        obtain ⟨c, c1, c2, c3⟩ := hget i t ht
        refine ⟨c, ?_, ?_, ?_⟩
        · rw [List.take_append_of_le_length (by omega)]
          exact c1
        · rw [e2, List.getElem?_append_left (by omega)]
          exact c2
        · rw [e3, List.getElem?_append_left (by omega)]
          exact c3
      · have hi' : s.txs.length ≤ i := by omega
        rw [List.getElem?_append_right hi'] at ht
        have hlt : i - s.txs.length < b.length := by
          have := List.getElem?_eq_some_iff.1 ht
          exact this.1
        obtain ⟨c, c1, c2⟩ := a3 (i - s.txs.length) hlt
        refine ⟨c, ?_, ?_, ?_⟩
        · rw [List.take_append, List.take_of_length_le (by omega)]
          rw [show i + 1 - s.txs.length = i - s.txs.length + 1 by omega]
          exact c1
        · rw [e2, List.getElem?_append_right (by omega), hl1,
            makeReceipts_get rs b s.txs.length _ _ t c2 ht]
          congr 2
          omega
        · rw [e3, List.getElem?_append_right (by omega), hl2, List.getElem?_map, c2]
          rfl

theorem batches_full (bs : List (List Tx)) (s : Stage) (h : Batches lib bs s) :
    Full lib s ∧ s.txs = bs.flatten := by
  induction h with
  | start => exact ⟨full_new lib, rfl⟩
  | next h he ih =>
    obtain ⟨a, b⟩ := full_batch lib _ _ _ ih.1 he
    exact ⟨a, by rw [b, ih.2]; simp⟩

theorem rollback_some (s s' : Stage) (n : Nat) (h : s.rollback n = some s') (hr : s.receipts.length = s.txs.length)
    (hv : s.events.length = s.txs.length) :
    n ≤ s.txs.length ∧ s'.txs = s.txs.take n ∧ s'.receipts = s.receipts.take n ∧ s'.events = s.events.take n ∧
      s'.executor = s.executor := by
  unfold Stage.rollback at h
  by_cases h1 : n > s.txs.length
  · simp [h1] at h
  · rw [if_neg h1] at h
    by_cases h2 : n = s.txs.length
    · rw [if_pos h2] at h
      cases h
      subst h2
      exact ⟨Nat.le_refl _, by simp, by rw [← hr]; simp, by rw [← hv]; simp, rfl⟩
    · rw [if_neg h2] at h
      cases h
      exact ⟨by omega, rfl, rfl, rfl, rfl⟩

theorem full_rollback (s s' : Stage) (n : Nat) (h : Full lib s) (hr : s.rollback n = some s') :
    AsExecuted lib (s.txs.take n) s' := by
  obtain ⟨hadd, _, hcom, hl1, hl2, hget⟩ := h
  obtain ⟨hn, e1, e2, e3, e4⟩ := rollback_some s s' n hr hl1 hl2
  refine ⟨e1, ?_, ?_, ?_, ?_⟩
  · unfold Stage.committed
    rw [e4, e1]
    cases hx : s.executor with
    | none =>
      rw [hx] at hadd
      change [] = s.txs at hadd
      rw [← hadd]
      simp
    | some x =>
      rw [hx] at hadd
      change x.added = s.txs at hadd
      show x.added.take (s.txs.take n).length = _
      rw [hadd, List.length_take, Nat.min_eq_left hn]
  · rw [e2, List.length_take, List.length_take, hl1]
  · rw [e3, List.length_take, List.length_take, hl2]
  · intro i t ht
    have hi : i < n := by
      have := (List.getElem?_eq_some_iff.1 ht).1
      rw [List.length_take] at this
      omega
    rw [List.getElem?_take_of_lt hi] at ht
    obtain ⟨c, c1, c2, c3⟩ := hget i t ht
    refine ⟨c, ?_, ?_, ?_⟩
    · rw [List.take_take, Nat.min_eq_left (by omega)]
      exact c1
    · rw [e2, List.getElem?_take_of_lt hi]
      exact c2
    · rw [e3, List.getElem?_take_of_lt hi]
      exact c3

theorem aligned_batch (s : Stage) (b : List Tx) (h : Aligned s) : Aligned (s.batch lib b).1 := by
  by_cases hne : b = []
  · subst hne
    simpa [Stage.batch] using h
  · generalize hp : s.batch lib b = p
    obtain ⟨s', ok⟩ := p
    cases ok with
    | true =>
      obtain ⟨x, x', rs, hx, hex, e1, e2, e3, e4⟩ := batch_ok lib s s' b hne hp
      obtain ⟨hl1, hl2, hget⟩ := h
      obtain ⟨a1, a2, a3⟩ := execute_ok lib x x' b rs hne hex
      show Aligned s'
      refine ⟨?_, ?_, ?_⟩
      · rw [e2, e1, List.length_append, List.length_append, hl1, makeReceipts_length rs b _ a2]
      · rw [e3, e1, List.length_append, List.length_append, hl2, List.length_map, a2]
      · intro i t ht
        rw [e1] at ht
        by_cases hi : i < s.txs.length
        · rw [List.getElem?_append_left hi] at ht
          obtain ⟨c, hc⟩ := hget i t ht
          exact ⟨c, by rw [e2, List.getElem?_append_left (by omega)]; exact hc⟩
        · rw [List.getElem?_append_right (by omega)] at ht
          obtain ⟨c, c1, c2⟩ := a3 (i - s.txs.length) (List.getElem?_eq_some_iff.1 ht).1
          refine ⟨c.receipt, ?_⟩
          rw [e2, List.getElem?_append_right (by omega), hl1, makeReceipts_get rs b s.txs.length _ _ t c2 ht]
          congr 2
          omega
    | false =>
      have : s'.txs = s.txs ∧ s'.receipts = s.receipts ∧ s'.events = s.events := by
        unfold Stage.batch at hp
        rw [if_neg hne] at hp
        split at hp
        · dsimp only at hp
          split at hp
          · cases hp; exact ⟨rfl, rfl, rfl⟩
          · simp at hp
        · cases hp; exact ⟨rfl, rfl, rfl⟩
      obtain ⟨e1, e2, e3⟩ := this
      show Aligned s'
      unfold Aligned
      rw [e1, e2, e3]
      exact h

theorem aligned_rollback (s s' : Stage) (n : Nat) (h : Aligned s) (hr : s.rollback n = some s') : Aligned s' := by
  obtain ⟨hl1, hl2, hget⟩ := h
  obtain ⟨hn, e1, e2, e3, _⟩ := rollback_some s s' n hr hl1 hl2
  refine ⟨by rw [e2, e1, List.length_take, List.length_take, hl1],
    by rw [e3, e1, List.length_take, List.length_take, hl2], ?_⟩
  intro i t ht
  rw [e1] at ht
  have hi : i < n := by
    have := (List.getElem?_eq_some_iff.1 ht).1
    rw [List.length_take] at this
    omega
  rw [List.getElem?_take_of_lt hi] at ht
  obtain ⟨c, hc⟩ := hget i t ht
  exact ⟨c, by rw [e2, List.getElem?_take_of_lt hi]; exact hc⟩

end Verif.BatchExec
