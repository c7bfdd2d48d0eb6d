import Mathlib.Tactic.LinearCombination
import Mathlib.Tactic.Ring
import Mathlib.Data.Nat.ModEq
import Mathlib.Tactic.Positivity
import Mathlib.Tactic.NormNum
import Mathlib.Algebra.Ring.Parity
import Verif.Crypto.Limbs
/-! Lemmas about the limb arithmetic. -/
namespace Verif.Crypto

/-- What the constants of an element type have to satisfy. -/
structure Modulus.Good (m : Modulus) : Prop where
  okP : m.P.Ok
  okR : m.R.Ok
  okR2 : m.R2.Ok
  one_lt : 1 < m.P.nat
  small : 4 * m.P.nat < W ^ 4
  odd : m.P.l0 % 2 = 1
  m0 : m.P.l0 * m.M0 % W = W - 1
  r : m.R.nat = W ^ 4 % m.P.nat
  r2 : m.R2.nat = W ^ 8 % m.P.nat

theorem fieldMod_good : fieldMod.Good where
  okP := ⟨by decide, by decide, by decide, by decide⟩
  okR := ⟨by decide, by decide, by decide, by decide⟩
  okR2 := ⟨by decide, by decide, by decide, by decide⟩
  one_lt := by decide +kernel
  small := by decide +kernel
  odd := by decide +kernel
  m0 := by decide +kernel
  r := by decide +kernel
  r2 := by decide +kernel

theorem orderMod_good : orderMod.Good where
  okP := ⟨by decide, by decide, by decide, by decide⟩
  okR := ⟨by decide, by decide, by decide, by decide⟩
  okR2 := ⟨by decide, by decide, by decide, by decide⟩
  one_lt := by decide +kernel
  small := by decide +kernel
  odd := by decide +kernel
  m0 := by decide +kernel
  r := by decide +kernel
  r2 := by decide +kernel

theorem Limbs.Ok.lt {x : Limbs} (h : x.Ok) : x.nat < W ^ 4 := by
  obtain ⟨h0, h1, h2, h3⟩ := h
  unfold Limbs.nat; simp only [W] at *; omega

theorem Limbs.nat_inj {x y : Limbs} (hx : x.Ok) (hy : y.Ok) (h : x.nat = y.nat) : x = y := by
  obtain ⟨a0, a1, a2, a3⟩ := hx
  obtain ⟨b0, b1, b2, b3⟩ := hy
  cases x; cases y
  simp only [Limbs.nat, W, Limbs.mk.injEq] at *
  omega

theorem adc_spec {a b c : Nat} (ha : a < W) (hb : b < W) (hc : c < W) (h : b ≤ 1 ∨ c ≤ 1) :
    (adc a b c).1 + W * (adc a b c).2 = a + b + c ∧ (adc a b c).1 < W ∧ (adc a b c).2 ≤ 1 := by
  simp only [adc, overflowingAdd, W] at *
  by_cases h1 : a + b < 18446744073709551616 <;>
    by_cases h2 : (a + b) % 18446744073709551616 + c < 18446744073709551616 <;>
    simp only [h1, h2, if_true, if_false, Nat.max_self, Nat.zero_max, Nat.max_zero] <;> omega

theorem sbb_spec {a b c : Nat} (ha : a < W) (hb : b < W) (hc : c ≤ 1) :
    (sbb a b c).1 + b + c = a + W * (sbb a b c).2 ∧ (sbb a b c).1 < W ∧ (sbb a b c).2 ≤ 1 := by
  simp only [sbb, overflowingSub, W] at *
  by_cases h1 : b ≤ a <;>
    by_cases h2 : c ≤ (18446744073709551616 + a - b) % 18446744073709551616 <;>
    simp only [h1, h2, if_true, if_false, Nat.max_self, Nat.zero_max, Nat.max_zero] <;> omega

theorem mul_lt_sq {a b : Nat} (ha : a < W) (hb : b < W) : a * b ≤ (W - 1) * (W - 1) :=
  Nat.mul_le_mul (by omega) (by omega)

theorem mac_spec {a b c d : Nat} (ha : a < W) (hb : b < W) (hc : c < W) (hd : d < W) :
    (mac a b c d).1 + W * (mac a b c d).2 = a * b + c + d ∧ (mac a b c d).1 < W ∧ (mac a b c d).2 < W := by
  have h := mul_lt_sq ha hb
  simp only [mac]
  generalize a * b = ab at h ⊢
  simp only [W] at *
  omega

theorem addNoreduce_spec {a b : Limbs} (ha : a.Ok) (hb : b.Ok) :
    (addNoreduce a b).Ok ∧ (addNoreduce a b).nat = (a.nat + b.nat) % W ^ 4 := by
  obtain ⟨a0, a1, a2, a3⟩ := ha
  obtain ⟨b0, b1, b2, b3⟩ := hb
  obtain ⟨e0, l0, c0⟩ := adc_spec (c := 0) a0 b0 (by decide) (.inr (by decide))
  obtain ⟨e1, l1, c1⟩ := adc_spec a1 b1 (c := (adc a.l0 b.l0 0).2) (by simp only [W]; omega) (.inr c0)
  obtain ⟨e2, l2, c2⟩ := adc_spec a2 b2 (c := (adc a.l1 b.l1 (adc a.l0 b.l0 0).2).2) (by simp only [W]; omega) (.inr c1)
  obtain ⟨e3, l3, c3⟩ := adc_spec a3 b3 (c := (adc a.l2 b.l2 (adc a.l1 b.l1 (adc a.l0 b.l0 0).2).2).2)
    (by simp only [W]; omega) (.inr c2)
  refine ⟨⟨l0, l1, l2, l3⟩, ?_⟩
  simp only [addNoreduce, Limbs.nat]
  simp only [W] at *
  omega

theorem subNoreduce_spec {a b : Limbs} (ha : a.Ok) (hb : b.Ok) (h : b.nat ≤ a.nat) :
    (subNoreduce a b).Ok ∧ (subNoreduce a b).nat = a.nat - b.nat := by
  obtain ⟨a0, a1, a2, a3⟩ := ha
  obtain ⟨b0, b1, b2, b3⟩ := hb
  obtain ⟨e0, l0, c0⟩ := sbb_spec a0 b0 (Nat.zero_le 1)
  obtain ⟨e1, l1, c1⟩ := sbb_spec a1 b1 c0
  obtain ⟨e2, l2, c2⟩ := sbb_spec a2 b2 c1
  obtain ⟨e3, l3, c3⟩ := sbb_spec a3 b3 c2
  refine ⟨⟨l0, l1, l2, l3⟩, ?_⟩
  simp only [subNoreduce, Limbs.nat] at *
  simp only [W] at *
  omega

/-- Subtraction with a borrow out of the top limb, undone by an earlier addition that wrapped around. -/
theorem subNoreduce_mod {a b : Limbs} (ha : a.Ok) (hb : b.Ok) :
    (subNoreduce a b).Ok ∧ (subNoreduce a b).nat = (W ^ 4 + a.nat - b.nat) % W ^ 4 := by
  obtain ⟨a0, a1, a2, a3⟩ := ha
  obtain ⟨b0, b1, b2, b3⟩ := hb
  obtain ⟨e0, l0, c0⟩ := sbb_spec a0 b0 (Nat.zero_le 1)
  obtain ⟨e1, l1, c1⟩ := sbb_spec a1 b1 c0
  obtain ⟨e2, l2, c2⟩ := sbb_spec a2 b2 c1
  obtain ⟨e3, l3, c3⟩ := sbb_spec a3 b3 c2
  refine ⟨⟨l0, l1, l2, l3⟩, ?_⟩
  simp only [subNoreduce, Limbs.nat] at *
  simp only [W] at *
  omega

theorem cmp_spec {a b : Limbs} (ha : a.Ok) (hb : b.Ok) : cmp a b = compare a.nat b.nat := by
  obtain ⟨a0, a1, a2, a3⟩ := ha
  obtain ⟨b0, b1, b2, b3⟩ := hb
  rcases Nat.lt_trichotomy a.nat b.nat with h | h | h
  · rw [Nat.compare_eq_lt.2 h]
    simp only [cmp, limbCmp, Limbs.nat, W] at *
    split; rfl
    split; omega
    split; rfl
    split; omega
    split; rfl
    split; omega
    split; rfl
    omega
  · rw [Nat.compare_eq_eq.2 h]
    simp only [cmp, limbCmp, Limbs.nat, W] at *
    split; omega
    split; omega
    split; omega
    split; omega
    split; omega
    split; omega
    split; omega
    split; omega
    rfl
  · rw [Nat.compare_eq_gt.2 h]
    simp only [cmp, limbCmp, Limbs.nat, W] at *
    split; omega
    split; rfl
    split; omega
    split; rfl
    split; omega
    split; rfl
    split; omega
    split; rfl
    omega

theorem gt_spec {a b : Limbs} (ha : a.Ok) (hb : b.Ok) : gt a b = true ↔ b.nat < a.nat := by
  simp only [gt, cmp_spec ha hb, decide_eq_true_eq, Nat.compare_eq_gt]

theorem lt_spec {a b : Limbs} (ha : a.Ok) (hb : b.Ok) : lt a b = true ↔ a.nat < b.nat := by
  simp only [lt, cmp_spec ha hb, decide_eq_true_eq, Nat.compare_eq_lt]

theorem geq_spec {a b : Limbs} (ha : a.Ok) (hb : b.Ok) : geq a b = true ↔ b.nat ≤ a.nat := by
  simp only [geq, cmp_spec ha hb, Bool.or_eq_true, decide_eq_true_eq, Nat.compare_eq_gt, Nat.compare_eq_eq]
  omega

theorem isZero_spec {a : Limbs} : isZero a = true ↔ a.nat = 0 := by
  simp only [isZero, Bool.and_eq_true, decide_eq_true_eq, Limbs.nat, W]
  omega

theorem isOne_spec {m : Modulus} (g : m.Good) {a : Limbs} (ha : a.Ok) : isOne m a = true ↔ a.nat = W ^ 4 % m.P.nat := by
  rw [← g.r]
  constructor
  · intro h
    simp only [isOne, Bool.and_eq_true, decide_eq_true_eq] at h
    simp only [Limbs.nat, h.1.1.1, h.1.1.2, h.1.2, h.2]
  · intro h
    have := Limbs.nat_inj ha g.okR h
    subst this; simp [isOne]

/-- A fully reduced element. -/
structure Canon (m : Modulus) (x : Limbs) : Prop where
  ok : x.Ok
  lt : x.nat < m.P.nat

theorem reducePartial_spec {m : Modulus} (g : m.Good) {a : Limbs} (ha : a.Ok) (h : a.nat < 2 * m.P.nat) :
    Canon m (reducePartial m a) ∧ (reducePartial m a).nat = a.nat % m.P.nat := by
  unfold reducePartial
  split
  · next h1 =>
    have h2 := (geq_spec ha g.okP).1 h1
    obtain ⟨o, e⟩ := subNoreduce_spec ha g.okP h2
    have e' : a.nat % m.P.nat = a.nat - m.P.nat := by
      rw [Nat.mod_eq_sub_mod h2, Nat.mod_eq_of_lt (by omega)]
    refine ⟨⟨o, by omega⟩, by omega⟩
  · next h1 =>
    have h2 : a.nat < m.P.nat := by
      have := (geq_spec ha g.okP).not.1 (by simpa using h1)
      omega
    exact ⟨⟨ha, h2⟩, (Nat.mod_eq_of_lt h2).symm⟩

theorem add_spec {m : Modulus} (g : m.Good) {a b : Limbs} (ha : Canon m a) (hb : Canon m b) :
    Canon m (add m a b) ∧ (add m a b).nat = (a.nat + b.nat) % m.P.nat := by
  obtain ⟨o, e⟩ := addNoreduce_spec ha.ok hb.ok
  have := ha.lt; have := hb.lt; have hs := g.small
  rw [Nat.mod_eq_of_lt (by omega)] at e
  have h := reducePartial_spec g o (by omega)
  rw [e] at h
  exact h

theorem double_spec {m : Modulus} (g : m.Good) {a : Limbs} (ha : Canon m a) :
    Canon m (double m a) ∧ (double m a).nat = (2 * a.nat) % m.P.nat := by
  have h := add_spec g ha ha
  rw [← Nat.two_mul] at h
  exact h

theorem sub_spec {m : Modulus} (g : m.Good) {a b : Limbs} (ha : Canon m a) (hb : Canon m b) :
    Canon m (sub m a b) ∧ (sub m a b).nat = (a.nat + (m.P.nat - b.nat)) % m.P.nat := by
  have h1 := ha.lt; have h2 := hb.lt; have hs := g.small
  unfold sub
  split
  · next h =>
    have h3 := (gt_spec hb.ok ha.ok).1 h
    obtain ⟨o, e⟩ := addNoreduce_spec ha.ok g.okP
    rw [Nat.mod_eq_of_lt (by omega)] at e
    obtain ⟨o', e'⟩ := subNoreduce_spec o hb.ok (by omega)
    rw [Nat.mod_eq_of_lt (by omega)]
    exact ⟨⟨o', by omega⟩, by omega⟩
  · next h =>
    have h3 := (gt_spec hb.ok ha.ok).not.1 (by simpa using h)
    obtain ⟨o', e'⟩ := subNoreduce_spec ha.ok hb.ok (by omega)
    have e2 : (a.nat + (m.P.nat - b.nat)) % m.P.nat = a.nat - b.nat := by
      have : a.nat + (m.P.nat - b.nat) = (a.nat - b.nat) + m.P.nat := by omega
      rw [this, Nat.add_mod_right, Nat.mod_eq_of_lt (by omega)]
    rw [e2]
    exact ⟨⟨o', by omega⟩, e'⟩

theorem neg_spec {m : Modulus} (g : m.Good) {a : Limbs} (ha : Canon m a) :
    Canon m (neg m a) ∧ (neg m a).nat = (m.P.nat - a.nat) % m.P.nat := by
  have h1 := ha.lt
  unfold neg
  split
  · next h =>
    have h0 := isZero_spec.1 h
    rw [h0]; simp [ha]
  · next h =>
    have h0 := isZero_spec.not.1 (by simpa using h)
    obtain ⟨o', e'⟩ := subNoreduce_spec g.okP ha.ok (by omega)
    rw [Nat.mod_eq_of_lt (by omega)]
    exact ⟨⟨o', by omega⟩, by omega⟩

/-- The value of five limbs. -/
theorem mulRow_spec {a : Nat} {x : Limbs} {r0 r1 r2 r3 : Nat} (ha : a < W) (hx : x.Ok)
    (h0 : r0 < W) (h1 : r1 < W) (h2 : r2 < W) (h3 : r3 < W) :
    ∃ s0 s1 s2 s3 s4, mulRow a x r0 r1 r2 r3 = (s0, s1, s2, s3, s4) ∧ s0 < W ∧ s1 < W ∧ s2 < W ∧ s3 < W ∧ s4 < W ∧
      s0 + W * s1 + W ^ 2 * s2 + W ^ 3 * s3 + W ^ 4 * s4 = a * x.nat + (r0 + W * r1 + W ^ 2 * r2 + W ^ 3 * r3) := by
  obtain ⟨x0, x1, x2, x3⟩ := hx
  obtain ⟨e0, l0, c0⟩ := mac_spec (d := 0) ha x0 h0 (by decide)
  obtain ⟨e1, l1, c1⟩ := mac_spec ha x1 h1 c0
  obtain ⟨e2, l2, c2⟩ := mac_spec ha x2 h2 c1
  obtain ⟨e3, l3, c3⟩ := mac_spec ha x3 h3 c2
  refine ⟨_, _, _, _, _, rfl, l0, l1, l2, l3, c3, ?_⟩
  unfold Limbs.nat
  linear_combination e0 + W * e1 + W ^ 2 * e2 + W ^ 3 * e3

theorem montRound_spec {m : Modulus} (g : m.Good) {r0 r1 r2 r3 r4 c : Nat}
    (h0 : r0 < W) (h1 : r1 < W) (h2 : r2 < W) (h3 : r3 < W) (h4 : r4 < W) (hc : c ≤ 1) :
    ∃ k s1 s2 s3 s4 c', montRound m r0 r1 r2 r3 r4 c = (s1, s2, s3, s4, c') ∧
      k < W ∧ s1 < W ∧ s2 < W ∧ s3 < W ∧ s4 < W ∧ c' ≤ 1 ∧
      r0 + W * r1 + W ^ 2 * r2 + W ^ 3 * r3 + W ^ 4 * r4 + W ^ 4 * c + k * m.P.nat =
        W * s1 + W ^ 2 * s2 + W ^ 3 * s3 + W ^ 4 * s4 + W ^ 5 * c' := by
  obtain ⟨x0, x1, x2, x3⟩ := g.okP
  have hk : r0 * m.M0 % W < W := Nat.mod_lt _ (by decide)
  obtain ⟨e0, l0, c0⟩ := mac_spec (d := 0) hk x0 h0 (by decide)
  obtain ⟨e1, l1, c1⟩ := mac_spec hk x1 h1 c0
  obtain ⟨e2, l2, c2⟩ := mac_spec hk x2 h2 c1
  obtain ⟨e3, l3, c3⟩ := mac_spec hk x3 h3 c2
  obtain ⟨e4, l4, c4⟩ := adc_spec h4 (b := c) (by simp only [W]; omega) c3 (.inl hc)
  refine ⟨r0 * m.M0 % W, _, _, _, _, _, rfl, hk, l1, l2, l3, l4, c4, ?_⟩
  have hz : (mac (r0 * m.M0 % W) m.P.l0 r0 0).1 = 0 := by
    have hm : (r0 * m.M0 % W) * m.P.l0 % W = r0 * (W - 1) % W := by
      rw [Nat.mod_mul_mod, Nat.mul_assoc, Nat.mul_comm m.M0, ← Nat.mul_mod_mod, g.m0]
    have : (mac (r0 * m.M0 % W) m.P.l0 r0 0).1 = ((r0 * m.M0 % W) * m.P.l0 + r0) % W := rfl
    rw [this, ← Nat.mod_add_mod, hm, Nat.mod_add_mod]
    have : r0 * (W - 1) + r0 = r0 * W := by
      rw [← Nat.mul_succ]; rfl
    rw [this, Nat.mul_mod_left]
  rw [hz] at e0
  unfold Limbs.nat
  symm
  linear_combination e0 + W * e1 + W ^ 2 * e2 + W ^ 3 * e3 + W ^ 4 * e4

/-- Montgomery reduction: the result times `2^256` is the argument, modulo the prime. -/
theorem montReduce_spec {m : Modulus} (g : m.Good) {r0 r1 r2 r3 r4 r5 r6 r7 : Nat}
    (h0 : r0 < W) (h1 : r1 < W) (h2 : r2 < W) (h3 : r3 < W) (h4 : r4 < W) (h5 : r5 < W) (h6 : r6 < W) (h7 : r7 < W)
    (hr : r0 + W * r1 + W ^ 2 * r2 + W ^ 3 * r3 + W ^ 4 * r4 + W ^ 5 * r5 + W ^ 6 * r6 + W ^ 7 * r7 < W ^ 4 * m.P.nat) :
    Canon m (montReduce m r0 r1 r2 r3 r4 r5 r6 r7) ∧
      (montReduce m r0 r1 r2 r3 r4 r5 r6 r7).nat * W ^ 4 ≡
        r0 + W * r1 + W ^ 2 * r2 + W ^ 3 * r3 + W ^ 4 * r4 + W ^ 5 * r5 + W ^ 6 * r6 + W ^ 7 * r7 [MOD m.P.nat] := by
  obtain ⟨k0, a1, a2, a3, a4, ca, ea, ka, la1, la2, la3, la4, lca, ha⟩ := montRound_spec g h0 h1 h2 h3 h4 (Nat.zero_le 1)
  obtain ⟨k1, b2, b3, b4, b5, cb, eb, kb, lb2, lb3, lb4, lb5, lcb, hb⟩ := montRound_spec g la1 la2 la3 la4 h5 lca
  obtain ⟨k2, c3, c4, c5, c6, cc, ec, kc, lc3, lc4, lc5, lc6, lcc, hc⟩ := montRound_spec g lb2 lb3 lb4 lb5 h6 lcb
  obtain ⟨k3, d4, d5, d6, d7, cd, ed, kd, ld4, ld5, ld6, ld7, lcd, hd⟩ := montRound_spec g lc3 lc4 lc5 lc6 h7 lcc
  have e : montReduce m r0 r1 r2 r3 r4 r5 r6 r7 = reducePartial m ⟨d4, d5, d6, d7⟩ := by
    simp only [montReduce, ea, eb, ec, ed]
  have tot : r0 + W * r1 + W ^ 2 * r2 + W ^ 3 * r3 + W ^ 4 * r4 + W ^ 5 * r5 + W ^ 6 * r6 + W ^ 7 * r7 +
      (k0 + W * k1 + W ^ 2 * k2 + W ^ 3 * k3) * m.P.nat =
      W ^ 4 * (Limbs.mk d4 d5 d6 d7).nat + W ^ 8 * cd := by
    have hz : W ^ 4 * (Limbs.mk d4 d5 d6 d7).nat = W ^ 4 * d4 + W ^ 5 * d5 + W ^ 6 * d6 + W ^ 7 * d7 := by
      unfold Limbs.nat; ring
    rw [hz]
    linear_combination ha + W * hb + W ^ 2 * hc + W ^ 3 * hd
  have okd : (Limbs.mk d4 d5 d6 d7).Ok := ⟨ld4, ld5, ld6, ld7⟩
  have kk : (k0 + W * k1 + W ^ 2 * k2 + W ^ 3 * k3) * m.P.nat ≤ W ^ 4 * m.P.nat :=
    Nat.mul_le_mul_right _ (by simp only [W] at *; omega)
  have hs := g.small
  have cz : cd = 0 := by
    by_contra hne
    have : W ^ 8 ≤ W ^ 8 * cd := Nat.le_mul_of_pos_right _ (by omega)
    have h8 : W ^ 8 = W ^ 4 * W ^ 4 := by ring
    have : W ^ 4 * (4 * m.P.nat) ≤ W ^ 4 * W ^ 4 := Nat.mul_le_mul_left _ (by omega)
    have : W ^ 4 * (4 * m.P.nat) = 4 * (W ^ 4 * m.P.nat) := by ring
    have : 0 < W ^ 4 * m.P.nat := by have := g.one_lt; positivity
    omega
  have bd : (Limbs.mk d4 d5 d6 d7).nat < 2 * m.P.nat := by
    have : W ^ 4 * (Limbs.mk d4 d5 d6 d7).nat < W ^ 4 * (2 * m.P.nat) := by
      have : W ^ 4 * (2 * m.P.nat) = 2 * (W ^ 4 * m.P.nat) := by ring
      rw [cz] at tot
      omega
    exact Nat.lt_of_mul_lt_mul_left this
  obtain ⟨cn, en⟩ := reducePartial_spec g okd bd
  refine ⟨e ▸ cn, ?_⟩
  rw [e, en]
  have : (Limbs.mk d4 d5 d6 d7).nat % m.P.nat * W ^ 4 ≡ (Limbs.mk d4 d5 d6 d7).nat * W ^ 4 [MOD m.P.nat] :=
    Nat.ModEq.mul_right _ (Nat.mod_modEq _ _)
  refine this.trans ?_
  rw [cz, Nat.mul_zero, Nat.add_zero, Nat.mul_comm (W ^ 4) (Limbs.nat _)] at tot
  rw [← tot]
  exact (Nat.ModEq.refl _).add (Nat.modEq_zero_iff_dvd.2 (Dvd.intro_left _ rfl))

/-- Montgomery multiplication; the first factor need not be reduced. -/
theorem mul_spec {m : Modulus} (g : m.Good) {a b : Limbs} (ha : a.Ok) (hb : Canon m b) :
    Canon m (mul m a b) ∧ (mul m a b).nat * W ^ 4 ≡ a.nat * b.nat [MOD m.P.nat] := by
  have z : (0 : Nat) < W := by decide
  obtain ⟨a0, a1, a2, a3, a4, ea, la0, la1, la2, la3, la4, ha'⟩ := mulRow_spec ha.l0 hb.ok z z z z
  obtain ⟨b1, b2, b3, b4, b5, eb, lb1, lb2, lb3, lb4, lb5, hb'⟩ := mulRow_spec ha.l1 hb.ok la1 la2 la3 la4
  obtain ⟨c2, c3, c4, c5, c6, ec, lc2, lc3, lc4, lc5, lc6, hc'⟩ := mulRow_spec ha.l2 hb.ok lb2 lb3 lb4 lb5
  obtain ⟨d3, d4, d5, d6, d7, ed, ld3, ld4, ld5, ld6, ld7, hd'⟩ := mulRow_spec ha.l3 hb.ok lc3 lc4 lc5 lc6
  have e : mul m a b = montReduce m a0 b1 c2 d3 d4 d5 d6 d7 := by simp only [mul, ea, eb, ec, ed]
  have tot : a0 + W * b1 + W ^ 2 * c2 + W ^ 3 * d3 + W ^ 4 * d4 + W ^ 5 * d5 + W ^ 6 * d6 + W ^ 7 * d7 =
      a.nat * b.nat := by
    have hz : a.nat = a.l0 + W * a.l1 + W ^ 2 * a.l2 + W ^ 3 * a.l3 := rfl
    rw [hz]
    linear_combination ha' + W * hb' + W ^ 2 * hc' + W ^ 3 * hd'
  have bd : a.nat * b.nat < W ^ 4 * m.P.nat := Nat.mul_lt_mul'' ha.lt hb.lt
  rw [e]
  have := montReduce_spec g la0 lb1 lc2 ld3 ld4 ld5 ld6 ld7 (by rw [tot]; exact bd)
  rw [tot] at this
  exact this

theorem shl1_spec {hi lo : Nat} (hl : lo < W) :
    shl1 hi lo = hi * 2 % W + lo / 9223372036854775808 ∧ shl1 hi lo < W := by
  refine ⟨rfl, ?_⟩
  simp only [shl1, W] at *; omega

theorem square_spec {m : Modulus} (g : m.Good) {a : Limbs} (ha : Canon m a) :
    Canon m (square m a) ∧ (square m a).nat * W ^ 4 ≡ a.nat * a.nat [MOD m.P.nat] := by
  have z : (0 : Nat) < W := by decide
  have bd : a.nat * a.nat < W ^ 4 * m.P.nat := Nat.mul_lt_mul'' ha.ok.lt ha.lt
  have bd2 : a.nat * a.nat < W ^ 8 := by
    have : a.nat * a.nat < W ^ 4 * W ^ 4 := Nat.mul_lt_mul'' ha.ok.lt ha.ok.lt
    rwa [← pow_add] at this
  obtain ⟨a0, a1, a2, a3⟩ := ha.ok
  obtain ⟨e1, l1, c1⟩ := mac_spec a0 a1 z z
  obtain ⟨e2, l2, c2⟩ := mac_spec a0 a2 z c1
  obtain ⟨e3, l3, c3⟩ := mac_spec a0 a3 z c2
  obtain ⟨f3, m3, d3⟩ := mac_spec a1 a2 l3 z
  obtain ⟨f4, m4, d4⟩ := mac_spec a1 a3 c3 d3
  obtain ⟨f5, m5, d5⟩ := mac_spec a2 a3 d4 z
  simp only [square]
  generalize mac a.l0 a.l1 0 0 = s1 at *
  generalize mac a.l0 a.l2 0 s1.2 = s2 at *
  generalize mac a.l0 a.l3 0 s2.2 = s3 at *
  generalize mac a.l1 a.l2 s3.1 0 = t3 at *
  generalize mac a.l1 a.l3 s3.2 t3.2 = t4 at *
  generalize mac a.l2 a.l3 t4.2 0 = u5 at *
  obtain ⟨g6, n6⟩ := shl1_spec (hi := u5.2) m5
  obtain ⟨g5, n5⟩ := shl1_spec (hi := u5.1) m4
  obtain ⟨g4, n4⟩ := shl1_spec (hi := t4.1) m3
  obtain ⟨g3, n3⟩ := shl1_spec (hi := t3.1) l2
  obtain ⟨g2, n2⟩ := shl1_spec (hi := s2.1) l1
  generalize hd7 : u5.2 / 9223372036854775808 = D7 at *
  generalize shl1 u5.2 u5.1 = D6 at *
  generalize shl1 u5.1 t4.1 = D5 at *
  generalize shl1 t4.1 t3.1 = D4 at *
  generalize shl1 t3.1 s2.1 = D3 at *
  generalize shl1 s2.1 s1.1 = D2 at *
  generalize hd1 : s1.1 * 2 % W = D1 at *
  have n1 : D1 < W := by rw [← hd1]; exact Nat.mod_lt _ z
  have n7 : D7 ≤ 1 := by simp only [W] at *; omega
  have dbl : W * D1 + W ^ 2 * D2 + W ^ 3 * D3 + W ^ 4 * D4 + W ^ 5 * D5 + W ^ 6 * D6 + W ^ 7 * D7 =
      2 * (W * s1.1 + W ^ 2 * s2.1 + W ^ 3 * t3.1 + W ^ 4 * t4.1 + W ^ 5 * u5.1 + W ^ 6 * u5.2) := by
    simp only [W] at *; omega
  obtain ⟨h0, o0, p0⟩ := mac_spec a0 a0 z z
  obtain ⟨h1, o1, p1⟩ := adc_spec n1 z p0 (.inl (by decide))
  obtain ⟨h2, o2, p2⟩ := mac_spec a1 a1 n2 (d := (adc D1 0 (mac a.l0 a.l0 0 0).2).2) (by simp only [W]; omega)
  generalize mac a.l0 a.l0 0 0 = q0 at *
  generalize adc D1 0 q0.2 = q1 at *
  obtain ⟨h3, o3, p3⟩ := adc_spec n3 z p2 (.inl (by decide))
  obtain ⟨h4, o4, p4⟩ := mac_spec a2 a2 n4 (d := (adc D3 0 (mac a.l1 a.l1 D2 q1.2).2).2) (by simp only [W]; omega)
  generalize mac a.l1 a.l1 D2 q1.2 = q2 at *
  generalize adc D3 0 q2.2 = q3 at *
  obtain ⟨h5, o5, p5⟩ := adc_spec n5 z p4 (.inl (by decide))
  obtain ⟨h6, o6, p6⟩ := mac_spec a3 a3 n6 (d := (adc D5 0 (mac a.l2 a.l2 D4 q3.2).2).2) (by simp only [W]; omega)
  generalize mac a.l2 a.l2 D4 q3.2 = q4 at *
  generalize adc D5 0 q4.2 = q5 at *
  obtain ⟨h7, o7, p7⟩ := adc_spec (a := D7) (by simp only [W]; omega) z p6 (.inl (by decide))
  generalize mac a.l3 a.l3 D6 q5.2 = q6 at *
  generalize adc D7 0 q6.2 = q7 at *
  have tot : q0.1 + W * q1.1 + W ^ 2 * q2.1 + W ^ 3 * q3.1 + W ^ 4 * q4.1 + W ^ 5 * q5.1 + W ^ 6 * q6.1 + W ^ 7 * q7.1 +
      W ^ 8 * q7.2 = a.nat * a.nat := by
    unfold Limbs.nat
    linear_combination h0 + W * h1 + W ^ 2 * h2 + W ^ 3 * h3 + W ^ 4 * h4 + W ^ 5 * h5 + W ^ 6 * h6 + W ^ 7 * h7 + dbl +
      2 * W * e1 + 2 * W ^ 2 * e2 + 2 * W ^ 3 * e3 + 2 * W ^ 3 * f3 + 2 * W ^ 4 * f4 + 2 * W ^ 5 * f5
  have cz : q7.2 = 0 := by
    by_contra hne
    have : W ^ 8 ≤ W ^ 8 * q7.2 := Nat.le_mul_of_pos_right _ (by omega)
    omega
  rw [cz, Nat.mul_zero, Nat.add_zero] at tot
  have := montReduce_spec g o0 o1 o2 o3 o4 o5 o6 o7 (by rw [tot]; exact bd)
  rw [tot] at this
  exact this

theorem zero_canon {m : Modulus} (g : m.Good) : Canon m zero ∧ zero.nat = 0 :=
  ⟨⟨⟨by decide, by decide, by decide, by decide⟩, by have := g.one_lt; have : zero.nat = 0 := rfl; omega⟩, rfl⟩

theorem R_canon {m : Modulus} (g : m.Good) : Canon m m.R :=
  ⟨g.okR, by rw [g.r]; exact Nat.mod_lt _ (by have := g.one_lt; omega)⟩

theorem R2_canon {m : Modulus} (g : m.Good) : Canon m m.R2 :=
  ⟨g.okR2, by rw [g.r2]; exact Nat.mod_lt _ (by have := g.one_lt; omega)⟩

theorem odd_nat {m : Modulus} (g : m.Good) : m.P.nat % 2 = 1 := by
  have := g.odd
  unfold Limbs.nat; simp only [W]; omega

/-- `2^256` is invertible. -/
theorem coprime_W {m : Modulus} (g : m.Good) (n : Nat) : Nat.Coprime m.P.nat (W ^ n) := by
  have h2 : Nat.Coprime m.P.nat 2 := by
    have := odd_nat g
    unfold Nat.Coprime; rw [Nat.gcd_comm, Nat.gcd_rec, this]; rfl
  have : (W : Nat) = 2 ^ 64 := by norm_num
  rw [this]
  exact (h2.pow_right _).pow_right _

theorem cancel_W {m : Modulus} (g : m.Good) {n a b : Nat} (h : a * W ^ n ≡ b * W ^ n [MOD m.P.nat]) :
    a ≡ b [MOD m.P.nat] :=
  Nat.ModEq.cancel_right_of_coprime (coprime_W g n) h

theorem toNative_spec {m : Modulus} (g : m.Good) {a : Limbs} (ha : a.Ok) :
    Canon m (toNative m a) ∧ (toNative m a).nat * W ^ 4 ≡ a.nat [MOD m.P.nat] := by
  have z : (0 : Nat) < W := by decide
  have e : a.l0 + W * a.l1 + W ^ 2 * a.l2 + W ^ 3 * a.l3 + W ^ 4 * 0 + W ^ 5 * 0 + W ^ 6 * 0 + W ^ 7 * 0 = a.nat := by
    simp only [Nat.mul_zero, Nat.add_zero, Limbs.nat]
  have h := montReduce_spec g ha.l0 ha.l1 ha.l2 ha.l3 z z z z (by
    rw [e]
    have := ha.lt
    have := g.one_lt
    have : W ^ 4 * 1 ≤ W ^ 4 * m.P.nat := Nat.mul_le_mul_left _ (by omega)
    omega)
  rw [e] at h
  exact h

theorem fromNative_spec {m : Modulus} (g : m.Good) {a : Limbs} (ha : a.Ok) :
    Canon m (fromNative m a) ∧ (fromNative m a).nat ≡ a.nat * W ^ 4 [MOD m.P.nat] := by
  obtain ⟨c, e⟩ := mul_spec g ha (R2_canon g)
  refine ⟨c, cancel_W g (n := 4) (e.trans ?_)⟩
  rw [g.r2, Nat.mul_assoc, ← pow_add]
  exact Nat.ModEq.mul_left _ (Nat.mod_modEq _ _)

theorem isEven_spec {a : Limbs} : isEven a = true ↔ a.nat % 2 = 0 := by
  simp only [isEven, decide_eq_true_eq, Limbs.nat, W]; omega

theorem div2_spec {a : Limbs} (ha : a.Ok) : (div2 a).Ok ∧ (div2 a).nat = a.nat / 2 := by
  obtain ⟨a0, a1, a2, a3⟩ := ha
  constructor
  · constructor <;> simp only [div2, W] at * <;> omega
  · simp only [div2, Limbs.nat, W] at *; omega

end Verif.Crypto
