import Verif.Crypto.CurveSpec
/-!
# The curve has no point of order two

A root `r` of `x³ + x + b` in the field would be a fixed point of the `p`-th power map. The `p`-th power of `x` modulo the cubic is
computed in the kernel, and `x^p - x` is invertible modulo the cubic.
-/
namespace Verif.Crypto

/-- The field prime and `b` as literals. -/
abbrev pN : Nat := 3618502788666131213697322783095070105623107215331596699973092056135872020481
abbrev bN : Nat := 3141592653589793238462643383279502884197169399375105820974944592307816406665

theorem pN_eq : Kind.felt.prime = pN := by decide +kernel

/-- Multiplication modulo `x³ + x + b` of polynomials `a0 + a1 x + a2 x²`. -/
def polyMul (s t : Nat × Nat × Nat) : Nat × Nat × Nat :=
  let c3 := s.2.1 * t.2.2 + s.2.2 * t.2.1
  let c4 := s.2.2 * t.2.2
  ((s.1 * t.1 + (pN - bN) * c3) % pN, (s.1 * t.2.1 + s.2.1 * t.1 + (pN - 1) * c3 + (pN - bN) * c4) % pN,
    (s.1 * t.2.2 + s.2.1 * t.2.1 + s.2.2 * t.1 + (pN - 1) * c4) % pN)

/-- The value of a polynomial. -/
def polyEv (r : Spec.F) (s : Nat × Nat × Nat) : Spec.F := (s.1 : Spec.F) + s.2.1 * r + s.2.2 * r ^ 2

theorem castMod (n : Nat) : ((n % pN : Nat) : Spec.F) = (n : Spec.F) := by
  rw [← pN_eq]; exact ZMod.natCast_mod _ _

theorem castP : ((pN : Nat) : Spec.F) = 0 := by rw [← pN_eq]; exact ZMod.natCast_self _

theorem castPsub {n : Nat} (h : n ≤ pN) : ((pN - n : Nat) : Spec.F) = -(n : Spec.F) := by
  rw [Nat.cast_sub h, castP, zero_sub]

theorem castB : ((bN : Nat) : Spec.F) = starkB := by
  unfold starkB; exact Nat.cast_ofNat

theorem polyMul_ev {r : Spec.F} (hr : r ^ 3 + r + starkB = 0) (s t : Nat × Nat × Nat) :
    polyEv r (polyMul s t) = polyEv r s * polyEv r t := by
  have h1 : ((pN - bN : Nat) : Spec.F) = -starkB := by rw [castPsub (by decide), castB]
  have h2 : ((pN - 1 : Nat) : Spec.F) = -1 := by rw [castPsub (by decide), Nat.cast_one]
  unfold polyEv polyMul
  simp only [castMod, Nat.cast_add, Nat.cast_mul, h1, h2]
  generalize (s.1 : Spec.F) = a0
  generalize (s.2.1 : Spec.F) = a1
  generalize (s.2.2 : Spec.F) = a2
  generalize (t.1 : Spec.F) = b0
  generalize (t.2.1 : Spec.F) = b1
  generalize (t.2.2 : Spec.F) = b2
  linear_combination -(a1 * b2 + a2 * b1 + a2 * b2 * r) * hr

/-- The power of `x` with an exponent in bits, the highest first. -/
def polyPow (bits : List Bool) : Nat × Nat × Nat :=
  bits.foldl (fun s b => if b then polyMul (polyMul s s) (0, 1, 0) else polyMul s s) (1, 0, 0)

theorem polyPow_ev {r : Spec.F} (hr : r ^ 3 + r + starkB = 0) (bits : List Bool) (s : Nat × Nat × Nat) (e : Nat)
    (hs : polyEv r s = r ^ e) :
    polyEv r (bits.foldl (fun s b => if b then polyMul (polyMul s s) (0, 1, 0) else polyMul s s) s) =
      r ^ bitsNat e bits := by
  induction bits generalizing s e with
  | nil => exact hs
  | cons b l ih =>
    rw [List.foldl_cons, bitsNat]
    refine ih _ _ ?_
    have hx : polyEv r (0, 1, 0) = r := by simp [polyEv]
    cases b
    · simp only [Bool.false_eq_true, if_false, polyMul_ev hr, hs]; ring
    · simp only [if_true, polyMul_ev hr, hs, hx]; ring

/-- The bits of the prime. -/
def pBits : List Bool :=
  true :: List.replicate 54 false ++ true :: List.replicate 3 false ++ true :: List.replicate 191 false ++ [true]

theorem pBits_eq : bitsNat 0 pBits = pN := by decide +kernel

/-- The inverse of `x^p - x` modulo the cubic. -/
def cert : Nat × Nat × Nat := (2043544184193508790506046486867995574328972747364632442021244577644613083411, 2935106962080035537842611299988581372091173088494006736581926048054027181133, 376400296575036714941695555522612899315471197531070009220369179516623567761)

theorem cert_ok : polyMul ((polyPow pBits).1, (polyPow pBits).2.1 + (pN - 1), (polyPow pBits).2.2) cert = (1, 0, 0) := by
  decide +kernel

/-- The right side of the curve equation has no root. -/
theorem no_root (r : Spec.F) : r ^ 3 + r + starkB ≠ 0 := by
  intro hr
  have h1 : polyEv r (polyPow pBits) = r ^ pN := by
    have := polyPow_ev hr pBits (1, 0, 0) 0 (by simp [polyEv])
    rwa [pBits_eq] at this
  have h2 : r ^ pN = r := by rw [← pN_eq]; exact ZMod.pow_card r
  have h3 := polyMul_ev hr ((polyPow pBits).1, (polyPow pBits).2.1 + (pN - 1), (polyPow pBits).2.2) cert
  rw [cert_ok] at h3
  have h4 : polyEv r ((polyPow pBits).1, (polyPow pBits).2.1 + (pN - 1), (polyPow pBits).2.2) = 0 := by
    have h5 : ((pN - 1 : Nat) : Spec.F) = -1 := by rw [castPsub (by decide), Nat.cast_one]
    rw [h2] at h1
    unfold polyEv at h1 ⊢
    simp only [Nat.cast_add, h5]
    linear_combination h1
  rw [h4, zero_mul] at h3
  simp [polyEv] at h3

end Verif.Crypto
