import Verif.Crypto.Field
import Verif.Crypto.Sqrt
/-! Lemmas about powers and square roots. -/
namespace Verif.Crypto

/-- The number with the given bits, highest first, below `acc`. -/
def bitsNat (acc : Nat) : List Bool → Nat
  | [] => acc
  | b :: l => bitsNat (2 * acc + if b then 1 else 0) l

theorem powLoop_spec {m : Modulus} [Fact m.P.nat.Prime] (g : m.Good) {a : Limbs} (ha : Canon m a) (bits : List Bool) {res : Limbs}
    {n : Nat} (hr : Canon m res) (he : fe m res = fe m a ^ n) :
    Canon m (powLoop m a res bits) ∧ fe m (powLoop m a res bits) = fe m a ^ bitsNat n bits := by
  induction bits generalizing res n with
  | nil => exact ⟨hr, he⟩
  | cons b l ih =>
    have hs := hr.square g
    have es : fe m (square m res) = fe m a ^ (2 * n) := by rw [fe_square g hr, he, ← pow_mul, Nat.mul_comm]
    cases b
    · exact ih hs es
    · refine ih (hs.mul g ha) ?_
      rw [if_pos rfl, if_pos rfl, fe_mul g hs ha, es, pow_succ]

theorem bits_sqrtT : bitsNat 0 (bitsNoLeadingZeros sqrtT) = 288230376151711752 := by decide +kernel

theorem pow_sqrtT {a : Limbs} (ha : Canon fieldMod a) : Canon fieldMod (pow fieldMod a sqrtT) ∧
    fe fieldMod (pow fieldMod a sqrtT) = fe fieldMod a ^ 288230376151711752 := by
  have h := powLoop_spec fieldMod_good ha (bitsNoLeadingZeros sqrtT) (R_canon fieldMod_good) (n := 0)
    (by rw [fe_one fieldMod_good, pow_zero])
  rw [bits_sqrtT] at h
  exact h

theorem sqrtZ_canon : Canon fieldMod sqrtZ := ⟨⟨by decide, by decide, by decide, by decide⟩, by decide +kernel⟩

theorem sqrtZ_fe : fe fieldMod sqrtZ = 3 ^ 576460752303423505 := by
  refine fe_eq_of fieldMod_good ?_
  have h : sqrtZ.nat % fieldMod.P.nat = powMod 3 576460752303423505 fieldMod.P.nat * W ^ 4 % fieldMod.P.nat := by
    decide +kernel
  have h2 := (ZMod.natCast_eq_natCast_iff' _ _ _).2 h
  rw [h2, powMod_spec (by norm_num), Nat.cast_mul, cast_mod]
  rw [Nat.cast_pow, Nat.cast_pow]; rfl

theorem card_eq : fieldMod.P.nat - 1 = 2 ^ 192 * 576460752303423505 := by decide +kernel

/-- Three is not a square. -/
theorem three_pow : (3 : Fld fieldMod) ^ (576460752303423505 * 2 ^ 191) = -1 := by
  have h : powMod 3 (576460752303423505 * 2 ^ 191) fieldMod.P.nat = fieldMod.P.nat - 1 := by decide +kernel
  rw [powMod_spec (by norm_num)] at h
  have h2 := congrArg (Nat.cast : Nat → Fld fieldMod) h
  rw [cast_mod, cast_sub_p (by decide +kernel)] at h2
  rw [Nat.cast_pow] at h2
  simpa using h2

section
variable {m : Modulus} [Fact m.P.nat.Prime]

theorem orderLoop_spec (g : m.Good) (fuel : Nat) {b : Limbs} (hb : Canon m b) (n k : Nat) (h : fe m b ^ (2 ^ n) = 1)
    (hn : n < fuel) : ∃ d, orderLoop m fuel b k = some (k + d) ∧ d ≤ n ∧ fe m b ^ (2 ^ d) = 1 ∧
      ∀ i < d, fe m b ^ (2 ^ i) ≠ 1 := by
  induction fuel generalizing b n k with
  | zero => omega
  | succ f ih =>
    rw [orderLoop]
    by_cases h1 : isOne m b = true
    · rw [if_pos h1]
      exact ⟨0, rfl, Nat.zero_le _, by rw [(isOne_fe g hb).1 h1, one_pow], fun i hi => by omega⟩
    · rw [if_neg h1]
      have hne : fe m b ≠ 1 := fun h => h1 ((isOne_fe g hb).2 h)
      obtain ⟨n, rfl⟩ : ∃ i, n = i + 1 := by
        cases n with
        | zero => exact absurd (by simpa using h) hne
        | succ i => exact ⟨i, rfl⟩
      have key : ∀ i, fe m (square m b) ^ (2 ^ i) = fe m b ^ (2 ^ (i + 1)) := by
        intro i
        rw [fe_square g hb, ← pow_mul, pow_succ, Nat.mul_comm]
      obtain ⟨d, e, hd, h2, h3⟩ := ih (hb.square g) n (k + 1) (by rw [key, h]) (by omega)
      refine ⟨d + 1, by rw [e]; congr 1; omega, by omega, by rw [← key, h2], ?_⟩
      intro i hi
      cases i with
      | zero => simpa using hne
      | succ i => rw [← key]; exact h3 i (by omega)

theorem squareTimes_spec (g : m.Good) (n : Nat) {w : Limbs} (hw : Canon m w) :
    Canon m (squareTimes m n w) ∧ fe m (squareTimes m n w) = fe m w ^ (2 ^ n) := by
  induction n generalizing w with
  | zero => exact ⟨hw, by simp [squareTimes]⟩
  | succ n ih =>
    obtain ⟨c, e⟩ := ih (hw.square g)
    refine ⟨c, ?_⟩
    rw [squareTimes, e, fe_square g hw, ← pow_mul, pow_succ, Nat.mul_comm]

/-- An element whose power is one where the previous power is not has minus one there. -/
theorem eq_neg_one {F : Type} [Field F] {b : F} {d : Nat} (h : b ^ (2 ^ (d + 1)) = 1) (hne : b ^ (2 ^ d) ≠ 1) :
    b ^ (2 ^ d) = -1 := by
  rw [pow_succ, pow_mul] at h
  have h2 : (b ^ 2 ^ d - 1) * (b ^ 2 ^ d + 1) = 0 := by linear_combination h
  rcases mul_eq_zero.1 h2 with h3 | h3
  · exact absurd (sub_eq_zero.1 h3) hne
  · exact eq_neg_of_add_eq_zero_left h3

theorem sqrtLoop_spec (g : m.Good) (fuel : Nat) {z b x : Limbs} {v : Nat} {a : Fld m} (hz : Canon m z) (hb : Canon m b)
    (hx : Canon m x) (hv : 1 ≤ v) (hvS : v ≤ sqrtS) (ez : fe m z ^ (2 ^ (v - 1)) = -1) (eb : fe m b ^ (2 ^ (v - 1)) = 1)
    (ex : fe m x ^ 2 = a * fe m b) (hf : v ≤ fuel) :
    ∃ r, sqrtLoop m fuel z b x v = some (some r) ∧ Canon m r ∧ fe m r ^ 2 = a := by
  induction fuel generalizing z b x v with
  | zero => omega
  | succ f ih =>
    rw [sqrtLoop]
    by_cases h1 : isOne m b = true
    · rw [if_pos h1]
      exact ⟨x, rfl, hx, by rw [ex, (isOne_fe g hb).1 h1, mul_one]⟩
    · rw [if_neg h1]
      have hne : fe m b ≠ 1 := fun h => h1 ((isOne_fe g hb).2 h)
      simp only [sqrtS] at hvS
      obtain ⟨d, e, hd, h2, h3⟩ := orderLoop_spec g 256 hb (v - 1) 0 eb (by omega)
      obtain ⟨d, rfl⟩ : ∃ i, d = i + 1 := by
        cases d with
        | zero => exact absurd (by simpa using h2) hne
        | succ i => exact ⟨i, rfl⟩
      rw [e]
      simp only [Nat.zero_add]
      rw [if_neg (by simp only [sqrtS]; omega), if_neg (by omega)]
      obtain ⟨cw, ew⟩ := squareTimes_spec g (v - (d + 1) - 1) hz
      have cz := cw.square g
      have ez' : fe m (square m (squareTimes m (v - (d + 1) - 1) z)) ^ (2 ^ d) = -1 := by
        rw [fe_square g cw, ew, ← pow_mul, ← pow_mul, ← ez]
        congr 1
        rw [← pow_succ', ← pow_add]
        congr 1; omega
      refine ih cz (hb.mul g cz) (hx.mul g cw) (by omega) (by simp only [sqrtS]; omega) ?_ ?_ ?_ (by omega)
      · rw [Nat.add_sub_cancel]; exact ez'
      · rw [Nat.add_sub_cancel, fe_mul g hb cz, mul_pow, ez', eq_neg_one h2 (h3 d (by omega))]; ring
      · rw [fe_mul g hx cw, fe_mul g hb cz, mul_pow, ex, fe_square g cw]; ring
end

theorem sqrt_spec {a : Limbs} (ha : Canon fieldMod a) :
    (∃ r, sqrt a = some (some r) ∧ Canon fieldMod r ∧ fe fieldMod r ^ 2 = fe fieldMod a) ∨
    (sqrt a = some none ∧ ∀ y : Fld fieldMod, y ^ 2 ≠ fe fieldMod a) := by
  have g := fieldMod_good
  by_cases h0 : isZero a = true
  · left
    refine ⟨zero, by rw [sqrt, if_pos h0], (zero_canon g).1, ?_⟩
    rw [fe_zero g, (isZero_fe g ha).1 h0]; simp
  · have hne : fe fieldMod a ≠ 0 := fun h => h0 ((isZero_fe g ha).2 h)
    obtain ⟨cw, ew⟩ := pow_sqrtT ha
    have cx := cw.mul g ha
    have cb := cx.mul g cw
    have eb : fe fieldMod (mul fieldMod (mul fieldMod (pow fieldMod a sqrtT) a) (pow fieldMod a sqrtT)) =
        fe fieldMod a ^ 576460752303423505 := by
      rw [fe_mul g cx cw, fe_mul g cw ha, ew, ← pow_succ, ← pow_add]
    have ex : fe fieldMod (mul fieldMod (pow fieldMod a sqrtT) a) ^ 2 = fe fieldMod a *
        fe fieldMod (mul fieldMod (mul fieldMod (pow fieldMod a sqrtT) a) (pow fieldMod a sqrtT)) := by
      rw [eb, fe_mul g cw ha, ew, ← pow_succ, ← pow_mul, ← pow_succ']
    have hs : sqrt a = sqrtLoop fieldMod 256 sqrtZ (mul fieldMod (mul fieldMod (pow fieldMod a sqrtT) a)
        (pow fieldMod a sqrtT)) (mul fieldMod (pow fieldMod a sqrtT) a) sqrtS := by
      rw [sqrt, if_neg h0]
    have fermat : fe fieldMod a ^ (576460752303423505 * 2 ^ 192) = 1 := by
      rw [Nat.mul_comm, ← card_eq]; exact ZMod.pow_card_sub_one_eq_one hne
    rw [hs]
    by_cases hq : fe fieldMod a ^ (576460752303423505 * 2 ^ 191) = 1
    · left
      refine sqrtLoop_spec g 256 sqrtZ_canon cb cx (by decide) (Nat.le_refl _) ?_ ?_ ex (by decide)
      · rw [sqrtZ_fe, ← pow_mul]; exact three_pow
      · rw [eb, ← pow_mul]; exact hq
    · right
      refine ⟨?_, ?_⟩
      · rw [sqrtLoop, if_neg]
        · obtain ⟨d, e, hd, h2, h3⟩ := orderLoop_spec g 256 cb 192 0 (by rw [eb, ← pow_mul]; exact fermat) (by decide)
          have : d = 192 := by
            by_contra hc
            apply hq
            have h4 : fe fieldMod a ^ (576460752303423505 * 2 ^ d) = 1 := by
              rw [pow_mul, ← eb]; exact h2
            have h5 : 576460752303423505 * 2 ^ 191 = 576460752303423505 * 2 ^ d * 2 ^ (191 - d) := by
              have h6 : d + (191 - d) = 191 := by omega
              rw [Nat.mul_assoc, ← pow_add, h6]
            rw [h5, pow_mul, h4, one_pow]
          rw [e, this]
          simp only [Nat.zero_add, sqrtS, if_true]
        · intro h1
          apply hq
          have := (isOne_fe g cb).1 h1
          rw [eb] at this
          rw [pow_mul, this, one_pow]
      · intro y hy
        apply hq
        have hy0 : y ≠ 0 := by rintro rfl; apply hne; rw [← hy]; ring
        rw [← hy, ← pow_mul]
        have : 2 * (576460752303423505 * 2 ^ 191) = fieldMod.P.nat - 1 := by rw [card_eq]; decide +kernel
        rw [this]; exact ZMod.pow_card_sub_one_eq_one hy0

end Verif.Crypto
