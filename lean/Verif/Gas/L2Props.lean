import Verif.Gas.L2
/-! # C42: the L2 gas price -/
namespace Verif.Gas

/-- The constants of some protocol version. -/
def Versioned (c : L2Constants) : Prop := c = pre0141 ∨ c = post0141

theorem Versioned.vals {c : L2Constants} (h : Versioned c) :
    c.maxChangeDenominator = 48 ∧ 3200000000 ≤ c.gasTarget ∧ c.gasTarget ≤ 4000000000 ∧ c.maxBlockSize ≤ 2 * c.gasTarget := by
  rcases h with rfl | rfl <;> simp [pre0141, post0141]

/-- A fraction `d / t` of `1/48` of the price is at most `1/48` of the price. -/
theorem change_le {p d t : Nat} (ht : 0 < t) (hd : d ≤ t) : p * d / (t * 48) ≤ p / 48 := by
  have h1 : p * d ≤ p * t := Nat.mul_le_mul_left p hd
  calc p * d / (t * 48) ≤ p * t / (t * 48) := Nat.div_le_div_right h1
    _ = t * p / (t * 48) := by rw [Nat.mul_comm p t]
    _ = p / 48 := Nat.mul_div_mul_left _ _ ht

theorem change_le_self {p d t : Nat} (ht : 0 < t) (hd : d ≤ t) : p * d / (t * 48) ≤ p :=
  Nat.le_trans (change_le ht hd) (Nat.div_le_self _ _)

/-- The formula, for prices that are not below the minimum: the exact adjustment, or the greatest adjustment if the product does not
fit into 128 bits. -/
theorem C42_formula {c : L2Constants} (hc : Versioned c) {price used minPrice : Nat} (h : minPrice ≤ price) :
    nextPrice price used minPrice c =
      if used > c.gasTarget then
        if price * (used - c.gasTarget) < U128 then
          if price + price * (used - c.gasTarget) / (c.gasTarget * 48) < U128 then
            some (price + price * (used - c.gasTarget) / (c.gasTarget * 48))
          else none
        else some (min (price + price / 48) (U128 - 1))
      else
        if price * (c.gasTarget - used) < U128 then some (max (price - price * (c.gasTarget - used) / (c.gasTarget * 48)) minPrice)
        else some (max (price - price / 48) minPrice) := by
  obtain ⟨h48, ht1, ht2, _⟩ := hc.vals
  have hm : mul128 c.gasTarget 48 = some (c.gasTarget * 48) := by
    unfold mul128 U128; rw [if_pos (by omega)]
  unfold nextPrice
  rw [if_neg (by omega)]
  by_cases hu : used > c.gasTarget
  · have hd : absDiff used c.gasTarget = used - c.gasTarget := by unfold absDiff; rw [if_neg (by omega)]
    rw [if_pos hu, hd]
    by_cases ho : price * (used - c.gasTarget) < U128
    · rw [if_pos ho]
      unfold mul128
      rw [if_pos ho]
      unfold adjustPrice
      simp only [h48, hm, Option.bind_some, if_pos hu]
      unfold div128 add128
      rw [if_neg (by omega), Option.bind_some]
      split
      · rw [Option.map_some, Nat.max_eq_left (Nat.le_trans h (Nat.le_add_right _ _))]
      · rfl
    · rw [if_neg ho]
      unfold mul128
      rw [if_neg ho]
      unfold fallbackPrice div128 satAdd128
      simp [h48, hu]
  · have hd : absDiff used c.gasTarget = c.gasTarget - used := by
      unfold absDiff; split <;> omega
    rw [if_neg hu, hd]
    by_cases ho : price * (c.gasTarget - used) < U128
    · rw [if_pos ho]
      unfold mul128
      rw [if_pos ho]
      unfold adjustPrice
      simp only [h48, hm, Option.bind_some, if_neg hu]
      unfold div128 sub128
      rw [if_neg (by omega), Option.bind_some, if_pos (change_le_self (by omega) (by omega)), Option.map_some]
    · rw [if_neg ho]
      unfold mul128
      rw [if_neg ho]
      unfold fallbackPrice div128
      simp [h48, hu]

/-- Once at or above the minimum, the price never falls below it, whatever the usage is. -/
theorem C42_at_least_min {c : L2Constants} (hc : Versioned c) {price used minPrice q : Nat} (h : minPrice ≤ price) (hp : price < U128)
    (e : nextPrice price used minPrice c = some q) : minPrice ≤ q := by
  rw [C42_formula hc h] at e
  generalize price * (used - c.gasTarget) / (c.gasTarget * 48) = up at *
  generalize price * (c.gasTarget - used) / (c.gasTarget * 48) = down at *
  unfold U128 at *
  split at e <;> split at e
  · split at e
    · cases e; omega
    · cases e
  · cases e; omega
  · cases e; omega
  · cases e; omega

/-- The price changes by at most 1/48 from one block to the next, for blocks within the maximum size. -/
theorem C42_bounded {c : L2Constants} (hc : Versioned c) {price used minPrice q : Nat} (h : minPrice ≤ price) (hp : price < U128)
    (hu : used ≤ c.maxBlockSize) (e : nextPrice price used minPrice c = some q) : q ≤ price + price / 48 ∧ price - price / 48 ≤ q := by
  obtain ⟨_, ht1, ht2, ht3⟩ := hc.vals
  rw [C42_formula hc h] at e
  have hi : used - c.gasTarget ≤ c.gasTarget := by omega
  have h1 := change_le (p := price) (t := c.gasTarget) (by omega) hi
  have h2 := change_le (p := price) (t := c.gasTarget) (d := c.gasTarget - used) (by omega) (by omega)
  generalize price * (used - c.gasTarget) / (c.gasTarget * 48) = up at *
  generalize price * (c.gasTarget - used) / (c.gasTarget * 48) = down at *
  unfold U128 at *
  split at e <;> split at e
  · split at e
    · cases e; omega
    · cases e
  · cases e; omega
  · cases e; omega
  · cases e; omega

/-- The price rises only if more gas than the target was used, and falls only if less was. -/
theorem C42_direction {c : L2Constants} (hc : Versioned c) {price used minPrice q : Nat} (h : minPrice ≤ price) (hp : price < U128)
    (e : nextPrice price used minPrice c = some q) : (price < q → c.gasTarget < used) ∧ (q < price → used < c.gasTarget) := by
  obtain ⟨_, ht1, ht2, ht3⟩ := hc.vals
  rw [C42_formula hc h] at e
  have hz : used = c.gasTarget → price * (c.gasTarget - used) / (c.gasTarget * 48) = 0 := by rintro rfl; simp
  generalize price * (used - c.gasTarget) / (c.gasTarget * 48) = up at *
  generalize price * (c.gasTarget - used) / (c.gasTarget * 48) = down at *
  split at e <;> split at e
  · split at e
    · cases e; exact ⟨fun _ => by assumption, fun _ => by omega⟩
    · cases e
  · cases e
    refine ⟨fun _ => by assumption, fun hq => ?_⟩
    unfold U128 at *; omega
  · cases e
    refine ⟨fun _ => by omega, fun hq => ?_⟩
    by_cases hu : used = c.gasTarget
    · have := hz hu; omega
    · omega
  · rename_i ho
    cases e
    refine ⟨fun _ => by omega, fun _ => ?_⟩
    by_cases hu : used = c.gasTarget
    · subst hu; simp [U128] at ho
    · omega

/-- A fuller block never gives a lower price. -/
theorem C42_monotone {c : L2Constants} (hc : Versioned c) {price used used' minPrice q q' : Nat} (h : minPrice ≤ price)
    (hp : price < U128) (hle : used ≤ used') (hu : used' ≤ c.maxBlockSize) (e : nextPrice price used minPrice c = some q)
    (e' : nextPrice price used' minPrice c = some q') : q ≤ q' := by
  obtain ⟨_, ht1, ht2, ht3⟩ := hc.vals
  by_cases h1 : used ≤ c.gasTarget
  · by_cases h2 : used' ≤ c.gasTarget
    · rw [C42_formula hc h, if_neg (by omega)] at e e'
      have hmul : price * (c.gasTarget - used') ≤ price * (c.gasTarget - used) := Nat.mul_le_mul_left _ (by omega)
      have hdiv : price * (c.gasTarget - used') / (c.gasTarget * 48) ≤ price * (c.gasTarget - used) / (c.gasTarget * 48) :=
        Nat.div_le_div_right hmul
      have hc' := change_le (p := price) (t := c.gasTarget) (d := c.gasTarget - used') (by omega) (by omega)
      generalize price * (c.gasTarget - used') / (c.gasTarget * 48) = d1 at *
      generalize price * (c.gasTarget - used) / (c.gasTarget * 48) = d2 at *
      split at e <;> split at e' <;> cases e <;> cases e' <;> omega
    · have d1 := (C42_direction hc h hp e).1
      have d2 := (C42_direction hc h hp e').2
      omega
  · rw [C42_formula hc h, if_pos (by omega)] at e e'
    have hmul : price * (used - c.gasTarget) ≤ price * (used' - c.gasTarget) := Nat.mul_le_mul_left _ (by omega)
    have hdiv : price * (used - c.gasTarget) / (c.gasTarget * 48) ≤ price * (used' - c.gasTarget) / (c.gasTarget * 48) :=
      Nat.div_le_div_right hmul
    have hc' := change_le (p := price) (t := c.gasTarget) (d := used - c.gasTarget) (by omega) (by omega)
    generalize price * (used' - c.gasTarget) / (c.gasTarget * 48) = d1 at *
    generalize price * (used - c.gasTarget) / (c.gasTarget * 48) = d2 at *
    split at e <;> split at e'
    · split at e <;> split at e' <;> cases e <;> cases e'
      omega
    · split at e <;> cases e <;> cases e'
      omega
    · exact absurd (Nat.lt_of_le_of_lt hmul (by assumption)) (by assumption)
    · cases e; cases e'; exact Nat.le_refl _

/-- The computation does not panic as long as the price is below 48/49 of the range and the block within the maximum size. Missing for
the full property: prices near the end of the range. -/
theorem C42_no_panic_partial {c : L2Constants} (hc : Versioned c) {price used minPrice : Nat} (hm : minPrice < U128)
    (hp : price + price / 48 < U128) (hu : used ≤ c.maxBlockSize) : ∃ q, nextPrice price used minPrice c = some q := by
  obtain ⟨_, ht1, ht2, ht3⟩ := hc.vals
  by_cases h : price < minPrice
  · unfold nextPrice add128 minIncreaseDenominator
    rw [if_pos h, if_pos (by omega)]
    exact ⟨_, rfl⟩
  · rw [C42_formula hc (by omega)]
    have h1 := change_le (p := price) (t := c.gasTarget) (d := used - c.gasTarget) (by omega) (by omega)
    by_cases hu' : used > c.gasTarget
    · generalize price * (used - c.gasTarget) / (c.gasTarget * 48) = d1 at *
      rw [if_pos hu', if_pos (show price + d1 < U128 by omega)]
      split <;> exact ⟨_, rfl⟩
    · rw [if_neg hu']
      split <;> exact ⟨_, rfl⟩

/-- Violation: near the end of the range the addition overflows, although the code has a fallback for extreme prices. -/
theorem C42_overflow_violated : ∃ price used, price < U128 ∧ used ≤ post0141.maxBlockSize ∧
    nextPrice price used post0141.minGasPrice post0141 = none :=
  ⟨U128 - 1, 4000000001, by decide, by decide, by decide⟩

/-! ## Below the minimum -/

/-- Below the minimum the price rises towards it, by at most 1/333, whatever the usage is. -/
theorem C42_below_min {c : L2Constants} {price used minPrice : Nat} (h : price < minPrice) (hm : minPrice < U128 / 2) :
    nextPrice price used minPrice c = some (min (price + price / 333) minPrice) := by
  unfold nextPrice add128 minIncreaseDenominator
  have : price + price / 333 < U128 := by unfold U128 at *; omega
  rw [if_pos h, if_pos this]
  rfl

/-- A chain of prices: every one is computed from the one before it and the gas used in that block. -/
def PriceChain (minPrice : Nat) (c : L2Constants) (price : Nat → Nat) (used : Nat → Nat) : Prop :=
  ∀ i, nextPrice (price i) (used i) minPrice c = some (price (i + 1))

/-- A price of at least 333 reaches the minimum, whatever the usage is. -/
theorem C42_recovers {c : L2Constants} {minPrice : Nat} (hm : minPrice < U128 / 2) {price used : Nat → Nat}
    (hch : PriceChain minPrice c price used) (h0 : 333 ≤ price 0) : ∃ n, minPrice ≤ price n := by
  apply Classical.byContradiction
  intro hc
  have hlt : ∀ n, price n < minPrice := fun n => Nat.lt_of_not_le fun h => hc ⟨n, h⟩
  have hstep : ∀ n, 333 + n ≤ price n := by
    intro n
    induction n with
    | zero => exact h0
    | succ n ih =>
      have h1 := hch n
      rw [C42_below_min (hlt n) hm, Option.some_inj] at h1
      have := hlt (n + 1)
      omega
  have := hstep minPrice
  have := hlt minPrice
  omega

/-- Violation: a price below 333 never reaches the minimum, whatever the usage is. -/
theorem C42_stuck_violated {c : L2Constants} {minPrice : Nat} (hm : minPrice < U128 / 2) {price used : Nat → Nat}
    (hch : PriceChain minPrice c price used) (h0 : price 0 < 333) (hmin : 333 ≤ minPrice) : ∀ n, price n = price 0 := by
  intro n
  induction n with
  | zero => rfl
  | succ n ih =>
    have h1 := hch n
    rw [C42_below_min (by omega) hm, Option.some_inj] at h1
    omega

/-! ## Validation -/

/-- After a block, exactly one price is accepted for the next: the one computed from the block. -/
theorem C42_validate {c : L2Constants} {price used : Nat} {s : Option Nat} (h : updateAfterBlock price used c = some s) (p : Nat) :
    (validateL2 s p = .valid ↔ nextPrice price used c.minGasPrice c = some p) ∧
    validateL2 none p = .insufficientData := by
  unfold updateAfterBlock at h
  cases e : nextPrice price used c.minGasPrice c with
  | none => rw [e] at h; cases h
  | some q =>
    rw [e] at h; cases h
    refine ⟨?_, rfl⟩
    unfold validateL2
    simp only
    split
    · rename_i hp; simp [hp]
    · rename_i hp; simp; exact fun h => hp h.symm

/-! ## The hypotheses are met -/

example : nextPrice 10000000000 5000000000 post0141.minGasPrice post0141 = some 10052083333 := by decide
example : nextPrice 10000000000 0 post0141.minGasPrice post0141 = some 9791666667 := by decide
example : nextPrice 8000000000 0 post0141.minGasPrice post0141 = some 8000000000 := by decide

/-- A chain of prices that is computed from any usage exists. -/
example : ∃ price : Nat → Nat, PriceChain 1000 post0141 price (fun _ => 4000000000) ∧ price 0 = 400 :=
  ⟨fun n => if n < 1000 then min (Nat.rec 400 (fun _ p => min (p + p / 333) 1000) n) 1000 else 1000, by
    intro i
    have key : ∀ p, p < 1001 → nextPrice p 4000000000 1000 post0141 = some (min (p + p / 333) 1000) := by decide +kernel
    have hmono : ∀ n, 400 + n ≤ (Nat.rec 400 (fun _ p => min (p + p / 333) 1000) n : Nat) ∨
        (Nat.rec 400 (fun _ p => min (p + p / 333) 1000) n : Nat) = 1000 := by
      intro n
      induction n with
      | zero => left; exact Nat.le_refl _
      | succ n ih => simp only; omega
    have hle : ∀ n, (Nat.rec 400 (fun _ p => min (p + p / 333) 1000) n : Nat) ≤ 1000 := by
      intro n
      cases n with
      | zero => show 400 ≤ 1000; decide
      | succ n => simp only; omega
    simp only
    by_cases h1 : i + 1 < 1000
    · rw [if_pos (by omega), if_pos h1, Nat.min_eq_left (hle i), Nat.min_eq_left (hle (i + 1)), key _ (by have := hle i; omega)]
    · rw [if_neg h1]
      by_cases h2 : i < 1000
      · rw [if_pos h2, key _ (by have := hle i; omega)]
        have := hmono i
        have := hle i
        congr 1; omega
      · rw [if_neg h2, key _ (by decide)]; rfl, rfl⟩

end Verif.Gas
