import Verif.BatchExec.Lemmas

/-!
# C117: executing a proposal in batches
-/

namespace Verif.BatchExec

/-- C117: after batches without errors, and after cutting the proposal to the number of transactions that its end
names, the block is exactly what executing these transactions one by one gives. -/
theorem C117_block (lib : Library) (bs : List (List Tx)) (s : Stage) (h : Batches lib bs s) :
    AsExecuted lib bs.flatten s ∧
    ∀ n s', s.rollback n = some s' → AsExecuted lib (bs.flatten.take n) s' := by
  obtain ⟨hf, ht⟩ := batches_full lib bs s h
  refine ⟨ht ▸ hf.2, ?_⟩
  intro n s' hr
  exact ht ▸ full_rollback lib s s' n hf hr

/-- C117: a proposal can be cut to every number of transactions that it has, and to no other. -/
theorem C117_cut (s : Stage) (n : Nat) : (∃ s', s.rollback n = some s') ↔ n ≤ s.txs.length := by
  unfold Stage.rollback
  by_cases h1 : n > s.txs.length
  · rw [if_pos h1]
    constructor
    · rintro ⟨_, h⟩
      cases h
    · intro h
      omega
  · rw [if_neg h1]
    refine ⟨fun _ => by omega, fun _ => ?_⟩
    by_cases h2 : n = s.txs.length
    · exact ⟨s, by rw [if_pos h2]⟩
    · exact ⟨_, by rw [if_neg h2]⟩

/-- C117: how the transactions were split into batches makes no difference to the block. -/
theorem C117_split (lib : Library) (bs bs' : List (List Tx)) (s s' : Stage) (h : Batches lib bs s)
    (h' : Batches lib bs' s') (he : bs.flatten = bs'.flatten) :
    s.txs = s'.txs ∧ s.receipts = s'.receipts ∧ s.events = s'.events ∧ s.committed = s'.committed := by
  obtain ⟨⟨a1, a2, a3, a4, a5⟩, _⟩ := C117_block lib bs s h
  obtain ⟨⟨b1, b2, b3, b4, b5⟩, _⟩ := C117_block lib bs' s' h'
  rw [← he] at b1 b2 b3 b4 b5
  refine ⟨a1.trans b1.symm, ?_, ?_, a2.trans b2.symm⟩
  · apply List.ext_getElem?
    intro i
    by_cases hi : i < bs.flatten.length
    · obtain ⟨c, c1, c2, _⟩ := a5 i _ (List.getElem?_eq_getElem hi)
      obtain ⟨d, d1, d2, _⟩ := b5 i _ (List.getElem?_eq_getElem hi)
      rw [c1] at d1
      cases d1
      rw [c2, d2]
    · rw [List.getElem?_eq_none (by omega), List.getElem?_eq_none (by omega)]
  · apply List.ext_getElem?
    intro i
    by_cases hi : i < bs.flatten.length
    · obtain ⟨c, c1, _, c2⟩ := a5 i _ (List.getElem?_eq_getElem hi)
      obtain ⟨d, d1, _, d2⟩ := b5 i _ (List.getElem?_eq_getElem hi)
      rw [c1] at d1
      cases d1
      rw [c2, d2]
    · rw [List.getElem?_eq_none (by omega), List.getElem?_eq_none (by omega)]

/-- C117: a proposal whose transactions are valid and can all be executed in their order is accepted, however it is
split into batches. -/
theorem C117_accepted (lib : Library) (bs : List (List Tx)) (hv : ∀ t ∈ bs.flatten, t.valid = true)
    (ho : ∀ i, i < bs.flatten.length → (lib (bs.flatten.take (i + 1))).isSome = true) :
    ∃ s, Batches lib bs s := by
  suffices hs : ∀ rest done : List (List Tx), done ++ rest = bs → (∃ s, Batches lib done s) → ∃ s, Batches lib bs s from
    hs bs [] rfl ⟨_, .start⟩
  intro rest
  induction rest with
  | nil => intro done he h; rw [← he, List.append_nil]; exact h
  | cons b rest ih =>
    rintro done he ⟨s, hs⟩
    refine ih (done ++ [b]) (by rw [← he]; simp) ?_
    have hflat : bs.flatten = done.flatten ++ b ++ rest.flatten := by rw [← he]; simp
    obtain ⟨⟨hadd, _⟩, htxs⟩ := batches_full lib done s hs
    by_cases hb : b = []
    · exact ⟨s, .next hs (by simp [Stage.batch, hb])⟩
    · have hval : b.all (·.valid) = true := by
        rw [List.all_eq_true]
        intro t ht
        exact hv t (by rw [hflat]; simp [ht])
      have hok : ∀ k, (collect k (outcomes lib done.flatten b)).2 = true := by
        have hall : ∀ o ∈ outcomes lib done.flatten b, o.isSome = true := by
          intro o ho'
          obtain ⟨i, hi⟩ := List.getElem?_of_mem ho'
          have hlt : i < b.length := by
            have := (List.getElem?_eq_some_iff.1 hi).1
            rwa [outcomes_length] at this
          rw [outcomes_get lib b _ i hlt] at hi
          cases hi
          have := ho (done.flatten.length + i) (by rw [hflat]; simp; omega)
          rw [hflat, List.append_assoc, List.take_append, List.take_of_length_le (by omega),
            show done.flatten.length + i + 1 - done.flatten.length = i + 1 by omega,
            List.take_append_of_le_length (by omega)] at this
          exact this
        revert hall
        generalize outcomes lib done.flatten b = l
        intro hall
        induction l with
        | nil => intro k; rfl
        | cons o l ih' =>
          intro k
          cases o with
          | none => exact absurd (hall none List.mem_cons_self) (by simp)
          | some c => exact ih' (fun o h => hall o (List.mem_cons_of_mem _ h)) (k + 1)
      have hx : ∃ x' rs, (s.executor.getD ⟨[], [], 0⟩).execute lib b = (x', some rs) := by
        unfold Executor.execute
        rw [if_neg hb, hadd, htxs]
        simp only [hok, if_true]
        exact ⟨_, _, rfl⟩
      obtain ⟨x', rs, hx⟩ := hx
      refine ⟨_, .next hs (b := b) (s' := ⟨s.txs ++ b, s.receipts ++ makeReceipts s.txs.length rs b,
        s.events ++ rs.map (·.2.events), some x'⟩) ?_⟩
      unfold Stage.batch
      rw [if_neg hb, if_pos hval]
      simp only [hx]

/-- C117: whatever a caller does, with errors and with rollbacks in any order, receipts and events stay with their
transactions. -/
theorem C117_aligned (lib : Library) (s : Stage) (h : Uses lib s) : Aligned s := by
  induction h with
  | start => exact ⟨rfl, rfl, by simp [Stage.new]⟩
  | batch h b ih => exact aligned_batch lib _ b ih
  | rollback h n hr ih => exact aligned_rollback _ _ n ih hr

/-- C117: a batch with an error leaves transactions, receipts and events as they were. -/
theorem C117_error (lib : Library) (s s' : Stage) (b : List Tx) (h : s.batch lib b = (s', false)) :
    s'.txs = s.txs ∧ s'.receipts = s.receipts ∧ s'.events = s.events := by
  unfold Stage.batch at h
  split at h
  · simp at h
  · split at h
    · dsimp only at h
      split at h
      · cases h; exact ⟨rfl, rfl, rfl⟩
      · simp at h
    · cases h; exact ⟨rfl, rfl, rfl⟩

/-- C117: a batch with a transaction that is not valid is refused, and nothing changes, not even in the executor. -/
theorem C117_refused (lib : Library) (s : Stage) (l : List Tx) (t : Tx) (ht : t ∈ l) (hv : t.valid = false) :
    s.batch lib l = (s, false) := by
  have h1 : l ≠ [] := by
    intro e
    rw [e] at ht
    cases ht
  have h2 : ¬ l.all (·.valid) = true := by
    intro h
    rw [List.all_eq_true] at h
    rw [h t ht] at hv
    cases hv
  unfold Stage.batch
  rw [if_neg h1, if_neg h2]

/-! ## Violations of the interface

The node does not use a stage in these ways: it cuts a proposal only at its end, and drops a proposal with an error. -/

def a : Tx := ⟨1, 1, true⟩
def b : Tx := ⟨2, 2, true⟩
def c : Tx := ⟨3, 3, true⟩

/-- Everything can be executed but the transaction with the given hash. -/
def libBut (bad : Nat) : Library := fun l =>
  match l.getLast? with
  | none => none
  | some t => if t.hash = bad then none else some ⟨l.length, [t.body]⟩

/-- After a rollback another batch can be executed, and the state of the block is that of the transaction that was
rolled back and not of the one that the block lists. -/
theorem C117_rollback_violated : ∃ s₁ s₂ s₃ : Stage, Stage.new.batch (libBut 0) [a] = (s₁, true) ∧
    s₁.rollback 0 = some s₂ ∧ s₂.batch (libBut 0) [b] = (s₃, true) ∧ s₃.txs = [b] ∧ s₃.committed = [a] :=
  ⟨_, _, _, rfl, rfl, rfl, rfl, rfl⟩

/-- After a batch with an error another one can be executed, and the state of the block is that of the transactions
of the batch that failed. -/
theorem C117_error_violated : ∃ s₁ s₂ : Stage, Stage.new.batch (libBut 2) [a, b] = (s₁, false) ∧
    s₁.batch (libBut 2) [c] = (s₂, true) ∧ s₂.txs = [c] ∧ s₂.committed = [a] :=
  ⟨_, _, rfl, rfl, rfl, rfl⟩

/-! ## The hypotheses are met -/

/-- Two batches and an empty one, and a cut. -/
example : ∃ s s', Batches (libBut 0) [[a, b], [], [c]] s ∧ s.rollback 2 = some s' ∧ s'.committed = [a, b] ∧
    s'.receipts = [⟨1, 0, 1⟩, ⟨2, 1, 2⟩] :=
  ⟨_, _, .next (.next (.next .start (b := [a, b]) rfl) (b := []) rfl) (b := [c]) rfl, rfl, rfl, rfl⟩

/-- Another split of the same transactions. -/
example : ∃ s, Batches (libBut 0) [[a], [b, c]] s :=
  ⟨_, .next (.next .start (b := [a]) rfl) (b := [b, c]) rfl⟩

example : (∀ t ∈ [[a, b], [c]].flatten, t.valid = true) ∧
    ∀ i, i < [[a, b], [c]].flatten.length → (libBut 0 ([[a, b], [c]].flatten.take (i + 1))).isSome = true := by
  decide

example : Stage.new.batch (libBut 0) [a, ⟨9, 9, false⟩] = (Stage.new, false) :=
  C117_refused _ _ _ ⟨9, 9, false⟩ (.tail _ (.head _)) rfl

example : Uses (libBut 2) (Stage.new.batch (libBut 2) [a, b]).1 := .batch .start _

end Verif.BatchExec
