import Mathlib.AlgebraicGeometry.EllipticCurve.Affine.Point
import Verif.Crypto.PoseidonProps
import Verif.Crypto.Curve
/-!
# The Stark curve

The curve `y² = x³ + x + b` over the field with `2^251 + 17·2^192 + 1` elements, with Mathlib's group of points of an elliptic
curve, and what it means that a point of the program stands for a point of the curve.
-/
namespace Verif.Crypto

/-- The constant `b` of the Stark curve. -/
def starkB : Spec.F := 0x6f21413efbe40de150e596d72f7a8c5609ad26c15c915c1f4cdfcb99cee9e89

/-- The Stark curve. -/
def stark : WeierstrassCurve.Affine Spec.F := ⟨0, 0, 0, 1, starkB⟩

/-- The points of the Stark curve with the point at infinity: a commutative group. -/
abbrev StarkPoint : Type := stark.Point

/-- The curve equation. -/
def OnCurve (x y : Spec.F) : Prop := y ^ 2 = x ^ 3 + x + starkB

/-- The point `P` has the coordinates `x` and `y`. -/
def HasCoords (P : StarkPoint) (x y : Spec.F) : Prop := ∃ h, P = .some x y h

/-- A projective point of the program: reduced elements, a nonzero third coordinate. -/
structure ProjPoint.Valid (p : ProjPoint) : Prop where
  x : Elem .felt p.x
  y : Elem .felt p.y
  z : Elem .felt p.z
  z0 : num p.z ≠ 0

/-- The projective point `p` stands for the curve point `P`. -/
def ProjPoint.Repr (p : ProjPoint) (P : StarkPoint) : Prop :=
  p.Valid ∧ if p.infinity then P = 0 else HasCoords P (num p.x / num p.z) (num p.y / num p.z)

/-- An affine point of the program: reduced elements. -/
structure AffPoint.Valid (p : AffPoint) : Prop where
  x : Elem .felt p.x
  y : Elem .felt p.y

/-- The affine point `p` stands for the curve point `P`. -/
def AffPoint.Repr (p : AffPoint) (P : StarkPoint) : Prop :=
  p.Valid ∧ if p.infinity then P = 0 else HasCoords P (num p.x) (num p.y)

/-- The number of a sequence of bits, the least significant first. -/
def leValue : List Bool → Nat
  | [] => 0
  | b :: l => b.toNat + 2 * leValue l

end Verif.Crypto
