import Verif.Fee.Model

namespace Verif.Fee

variable {S : Type}

/-- Where the search stands between rounds: the upper bound is known to suffice. -/
structure Inv (sim : Nat → Sim S) (s : Search) : Prop where
  le : s.lower ≤ s.upper
  cur : s.current = s.lower + (s.upper - s.lower + 1) / 2
  up : ∃ g r a, sim s.upper = .ok g r a

/-- What a limit that was found is. -/
structure FoundAt (sim : Nat → Sim S) (s : Search) (limit gas : Nat) (reverted : Bool) (after : S) : Prop where
  ok : sim limit = .ok gas reverted after
  lo : s.lower ≤ limit
  hi : limit ≤ s.upper
  near : ∃ l, s.lower ≤ l ∧ l ≤ limit ∧ limit ≤ l + 500000 ∧ (l = s.lower ∨ sim l = .outOfGas)

theorem rounds_spec (sim : Nat → Sim S) (k : Nat) : ∀ s : Search, Inv sim s → s.upper - s.lower ≤ 2 ^ k →
    rounds sim (k + 1) s = .error ∨
    ∃ limit gas reverted after, rounds sim (k + 1) s = .found limit gas reverted after ∧
      FoundAt sim s limit gas reverted after := by
  induction k with
  | zero =>
    intro s inv hd
    have hcu : s.current = s.upper := by have := inv.cur; have := inv.le; simp at hd; omega
    obtain ⟨g, r, a, hu⟩ := inv.up
    refine .inr ⟨s.current, g, r, a, ?_, ?_⟩
    · unfold rounds round
      rw [hcu, hu]
      simp only
      rw [if_neg (by have := inv.le; omega), if_pos (by unfold margin; simp at hd; omega)]
    · refine ⟨by rw [hcu]; exact hu, by rw [hcu]; exact inv.le, by omega, s.lower, Nat.le_refl _, ?_, ?_, .inl rfl⟩
      · rw [hcu]; exact inv.le
      · have := inv.le; simp at hd; omega
  | succ k ih =>
    intro s inv hd
    have hpow : 2 ^ (k + 1) = 2 * 2 ^ k := by rw [Nat.pow_succ]; omega
    unfold rounds
    cases hs : sim s.current with
    | error =>
      refine .inl ?_
      simp [round, hs]
    | ok g r a =>
      by_cases hm : s.upper - s.lower ≤ margin
      · refine .inr ⟨s.current, g, r, a, ?_, ?_⟩
        · simp only [round, hs]
          rw [if_neg (by have := inv.le; omega), if_pos hm]
        · have := inv.le
          have := inv.cur
          unfold margin at hm
          exact ⟨hs, by omega, by omega, s.lower, Nat.le_refl _, by omega, by omega, .inl rfl⟩
      · have hle := inv.le
        have hc := inv.cur
        have hr : round sim s = .again
            { lower := s.lower, upper := s.current, current := s.lower + (s.current - s.lower + 1) / 2 } := by
          simp only [round, hs]
          rw [if_neg (by omega), if_neg hm]
          unfold midpoint
          rw [if_pos (by omega)]
        rw [hr]
        simp only
        rcases ih { lower := s.lower, upper := s.current, current := s.lower + (s.current - s.lower + 1) / 2 }
          ⟨by simp only; omega, rfl, ⟨g, r, a, hs⟩⟩ (by simp only; omega) with h | ⟨l, g', r', a', h, f⟩
        · exact .inl h
        · refine .inr ⟨l, g', r', a', h, ⟨f.ok, f.lo, ?_, f.near⟩⟩
          have := f.hi
          simp only at this
          omega
    | outOfGas =>
      have hle := inv.le
      have hc := inv.cur
      have hne : s.current ≠ s.upper := by
        intro e
        obtain ⟨g, r, a, hu⟩ := inv.up
        rw [e, hu] at hs
        cases hs
      have hr : round sim s = .again
          { lower := s.current, upper := s.upper, current := s.current + (s.upper - s.current + 1) / 2 } := by
        simp only [round, hs]
        unfold midpoint
        rw [if_pos (by omega)]
      rw [hr]
      simp only
      rcases ih { lower := s.current, upper := s.upper, current := s.current + (s.upper - s.current + 1) / 2 }
        ⟨by simp only; omega, rfl, inv.up⟩ (by simp only; omega) with h | ⟨l, g', r', a', h, f⟩
      · exact .inl h
      · have := f.lo
        simp only at this
        refine .inr ⟨l, g', r', a', h, ⟨f.ok, by omega, f.hi, ?_⟩⟩
        obtain ⟨x, h1, h2, h3, h4⟩ := f.near
        simp only at h1 h4
        refine ⟨x, by omega, h2, h3, ?_⟩
        rcases h4 with h4 | h4
        · rw [h4]; exact .inr hs
        · exact .inr h4

/-- More rounds than needed make no difference. -/
theorem rounds_mono (sim : Nat → Sim S) (n : Nat) : ∀ (s : Search) (m : Nat), n ≤ m →
    (∀ s', rounds sim n s ≠ .again s') → rounds sim m s = rounds sim n s := by
  induction n with
  | zero => intro s m _ h; exact absurd rfl (h s)
  | succ n ih =>
    intro s m hm h
    obtain ⟨m', rfl⟩ : ∃ m', m = m' + 1 := ⟨m - 1, by omega⟩
    unfold rounds at h ⊢
    cases hr : round sim s with
    | again s' =>
      rw [hr] at h
      exact ih s' m' (by omega) h
    | found => rfl
    | error => rfl
    | panic => rfl

theorem percent_le {p : Nat} (hp : p ≤ 100) (v : Nat) : percentOf p v ≤ v := by
  unfold percentOf
  have : v * p ≤ v * 100 := Nat.mul_le_mul_left _ hp
  omega

end Verif.Fee
