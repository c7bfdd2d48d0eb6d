import Verif.Crypto.CurveSpec
/-!
# ECDSA on the Stark curve

The textbook definition. Only the first coordinate of the public key is known to the verifier, so both points with it are tried.
-/
namespace Verif.Crypto

/-- The number of points of the Stark curve, a prime. -/
abbrev sigOrder : Nat := Kind.scalar.prime

/-- The generator of the Stark curve. -/
def IsGenerator (G : StarkPoint) : Prop :=
  HasCoords G (0x1ef15c18599971b7beced415a40f0c7deacfd9b0d1819e03d723d8bc943cfca : Nat)
    (0x5668060aa49730b7be4801df46ec62de53ecd11abe43a32873000c36e8dc1f : Nat)

/-- The signature `(r, s)` belongs to the message `z` and the public key `Q` or `-Q`: with the inverse `w` of `s` modulo the order,
one of the points `zw G + rw Q` and `zw G - rw Q` has the first coordinate `r`. -/
def SigValid (G Q : StarkPoint) (z r s : Nat) : Prop :=
  ∃ w R y, s * w % sigOrder = 1 ∧ HasCoords R (r : Spec.F) y ∧
    (R = (z * w % sigOrder) • G + (r * w % sigOrder) • Q ∨ R = (z * w % sigOrder) • G - (r * w % sigOrder) • Q)

/-- The bounds that Starknet puts on messages and signatures. -/
def SigBounds (z r s : Nat) : Prop := z < 2 ^ 251 ∧ 0 < r ∧ r < 2 ^ 251 ∧ 0 < s ∧ s < 2 ^ 251

end Verif.Crypto
