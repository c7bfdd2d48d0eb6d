import Verif.Crypto.Sqrt
/-!
# Points of the Stark curve

Model of `crates/crypto/src/algebra/curve`. Methods that change `self` return the new value. A function whose `unwrap` may
panic returns an `Option`.
-/
namespace Verif.Crypto

/-- `ProjectivePoint` (projective.rs:8-14). -/
structure ProjPoint where
  x : Limbs
  y : Limbs
  z : Limbs
  infinity : Bool
  deriving DecidableEq, Repr

/-- `AffinePoint` (affine.rs:8-13). -/
structure AffPoint where
  x : Limbs
  y : Limbs
  infinity : Bool
  deriving DecidableEq, Repr

/-- `CURVE_B` (params.rs:13-14) and the coordinates of `CURVE_G` (params.rs:17-20): the hexadecimal constants, and the
conversion of `MontFelt::from_hex` (montfelt/hex.rs). -/
def hexConst (l3 l2 l1 l0 : Nat) : Limbs := fromNative fieldMod ⟨l0, l1, l2, l3⟩

/-- `CURVE_A` (params.rs:10). -/
def curveA : Limbs := fieldMod.R

/-- `CURVE_B` (params.rs:13-14). -/
def curveB : Limbs := hexConst 0x6f21413efbe40de 0x150e596d72f7a8c5 0x609ad26c15c915c1 0xf4cdfcb99cee9e89

/-- `CURVE_G` (params.rs:17-20). -/
def curveG : ProjPoint where
  x := hexConst 0x1ef15c18599971b 0x7beced415a40f0c7 0xdeacfd9b0d1819e0 0x3d723d8bc943cfca
  y := hexConst 0x5668060aa49730 0xb7be4801df46ec62 0xde53ecd11abe43a3 0x2873000c36e8dc1f
  z := fieldMod.R
  infinity := false

/-- `MontFelt::TWO`, `MontFelt::THREE` (montfelt/constants.rs:37-40). -/
def feltTwo : Limbs := add fieldMod fieldMod.R fieldMod.R
def feltThree : Limbs := add fieldMod feltTwo fieldMod.R

local infixl:65 " +ₘ " => add fieldMod
local infixl:65 " -ₘ " => sub fieldMod
local infixl:70 " *ₘ " => mul fieldMod

/-- `inverse().unwrap()` of a field element. -/
def invUnwrap (a : Limbs) : Option Limbs := (inverse fieldMod a).join

/-- `From<&AffinePoint> for ProjectivePoint` (projective.rs:16-28): the flag of the argument is not looked at. -/
def ProjPoint.ofAffine (p : AffPoint) : ProjPoint := ⟨p.x, p.y, fieldMod.R, false⟩

/-- `ProjectivePoint::identity` (projective.rs:62-69). -/
def ProjPoint.identity : ProjPoint := ⟨zero, zero, fieldMod.R, true⟩

/-- `ProjectivePoint::negate` (projective.rs:72-74). -/
def ProjPoint.negate (p : ProjPoint) : ProjPoint := { p with y := neg fieldMod p.y }

/-- `ProjectivePoint::double` (projective.rs:77-98). -/
def ProjPoint.double (p : ProjPoint) : ProjPoint :=
  if p.infinity then p
  else
    let x2 := square fieldMod p.x
    let t := x2 +ₘ Crypto.double fieldMod x2 +ₘ square fieldMod p.z
    let u := Crypto.double fieldMod (p.y *ₘ p.z)
    let v := Crypto.double fieldMod (u *ₘ p.x *ₘ p.y)
    let w := square fieldMod t -ₘ Crypto.double fieldMod v
    let uy := u *ₘ p.y
    let x := u *ₘ w
    let y := t *ₘ (v -ₘ w) -ₘ Crypto.double fieldMod (uy *ₘ uy)
    let z := u *ₘ u *ₘ u
    ⟨x, y, z, p.infinity⟩

/-- `ProjectivePoint::add` (projective.rs:101-140). -/
def ProjPoint.add (p o : ProjPoint) : ProjPoint :=
  if o.infinity then p
  else if p.infinity then ⟨o.x, o.y, o.z, o.infinity⟩
  else
    let u0 := p.x *ₘ o.z
    let u1 := o.x *ₘ p.z
    let t0 := p.y *ₘ o.z
    let t1 := o.y *ₘ p.z
    if u0 = u1 then
      if t0 ≠ t1 then { p with infinity := true } else p.double
    else
      let t := t0 -ₘ t1
      let u := u0 -ₘ u1
      let u2 := square fieldMod u
      let v := p.z *ₘ o.z
      let w := square fieldMod t *ₘ v -ₘ u2 *ₘ (u0 +ₘ u1)
      let u3 := u *ₘ u2
      let x := u *ₘ w
      let y := t *ₘ (u0 *ₘ u2 -ₘ w) -ₘ t0 *ₘ u3
      let z := u3 *ₘ v
      ⟨x, y, z, p.infinity⟩

/-- `ProjectivePoint::add_affine` (projective.rs:143-183). -/
def ProjPoint.addAffine (p : ProjPoint) (o : AffPoint) : ProjPoint :=
  if o.infinity then p
  else if p.infinity then ⟨o.x, o.y, fieldMod.R, o.infinity⟩
  else
    let u0 := p.x
    let u1 := o.x *ₘ p.z
    let t0 := p.y
    let t1 := o.y *ₘ p.z
    if u0 = u1 then
      if t0 ≠ t1 then { p with infinity := true } else p.double
    else
      let t := t0 -ₘ t1
      let u := u0 -ₘ u1
      let u2 := u *ₘ u
      let v := p.z
      let w := t *ₘ t *ₘ v -ₘ u2 *ₘ (u0 +ₘ u1)
      let u3 := u *ₘ u2
      let x := u *ₘ w
      let y := t *ₘ (u0 *ₘ u2 -ₘ w) -ₘ t0 *ₘ u3
      let z := u3 *ₘ v
      ⟨x, y, z, p.infinity⟩

/-- The body of the loop of `ProjectivePoint::multiply` (projective.rs:188-193). -/
def ProjPoint.mulStep (base product : ProjPoint) (b : Bool) : ProjPoint :=
  if b then product.double.add base else product.double

/-- `ProjectivePoint::multiply` (projective.rs:186-195): bits with the least significant first. -/
def ProjPoint.multiply (p : ProjPoint) (bits : List Bool) : ProjPoint := bits.reverse.foldl p.mulStep .identity

/-- `into_le_bits` (montfelt/convert.rs:50-53, curveorder/convert.rs:61-64): a `BitArray<[u64; 4], Lsb0>`. -/
def leBits (m : Modulus) (x : Limbs) : List Bool :=
  (List.range 256).map fun i => (limb (toNative m x) (i / 64)).testBit (i % 64)

/-- `ProjectivePoint::multiply_elm` (projective.rs:198-201). -/
def ProjPoint.multiplyElm (p : ProjPoint) (e : Limbs) : ProjPoint := p.multiply (leBits orderMod e)

/-- `From<&ProjectivePoint> for AffinePoint` (affine.rs:15-26): the flag of the argument is not looked at; `none` is the panic
of `unwrap`. -/
def AffPoint.ofProj (p : ProjPoint) : Option AffPoint :=
  (invUnwrap p.z).map fun zinv => ⟨p.x *ₘ zinv, p.y *ₘ zinv, false⟩

/-- `AffinePoint::from_x` (affine.rs:52-60): the outer `Option` is that of `sqrt`, none of its loops is endless. -/
def AffPoint.fromX (x : Limbs) : Result (Option AffPoint) :=
  (sqrt (square fieldMod x *ₘ x +ₘ curveA *ₘ x +ₘ curveB)).map fun r => r.map fun y => ⟨x, y, false⟩

/-- `AffinePoint::identity` (affine.rs:63-69). -/
def AffPoint.identity : AffPoint := ⟨zero, zero, true⟩

/-- `AffinePoint::negate` (affine.rs:72-74). -/
def AffPoint.negate (p : AffPoint) : AffPoint := { p with y := neg fieldMod p.y }

/-- The new coordinates of `double` and `add` for a given slope (affine.rs:89-91 with `x2 = self.x`, and affine.rs:122-124). -/
def slopeCoords (x1 y1 x2 lambda : Limbs) : Limbs × Limbs :=
  let resultX := lambda *ₘ lambda -ₘ x1 -ₘ x2
  (resultX, lambda *ₘ (x1 -ₘ resultX) -ₘ y1)

/-- The point with new coordinates and the old flag. -/
def AffPoint.withCoords (p : AffPoint) (c : Limbs × Limbs) : AffPoint := ⟨c.1, c.2, p.infinity⟩

/-- `AffinePoint::double` (affine.rs:77-92). -/
def AffPoint.double (p : AffPoint) : Option AffPoint :=
  if p.infinity then some p
  else (invUnwrap (feltTwo *ₘ p.y)).map fun inv =>
    p.withCoords (slopeCoords p.x p.y p.x ((feltThree *ₘ (p.x *ₘ p.x) +ₘ fieldMod.R) *ₘ inv))

/-- `AffinePoint::add` (affine.rs:95-125). -/
def AffPoint.add (p o : AffPoint) : Option AffPoint :=
  if o.infinity then some p
  else if p.infinity then some ⟨o.x, o.y, o.infinity⟩
  else if p.x = o.x then
    if p.y ≠ o.y then some { p with infinity := true } else p.double
  else (invUnwrap (o.x -ₘ p.x)).map fun inv => p.withCoords (slopeCoords p.x p.y o.x ((o.y -ₘ p.y) *ₘ inv))

/-- The body of the loop of `AffinePoint::multiply` (affine.rs:130-135). -/
def AffPoint.mulStep (base : AffPoint) (product : Option AffPoint) (b : Bool) : Option AffPoint :=
  product.bind fun p => p.double.bind fun q => if b then q.add base else some q

/-- `AffinePoint::multiply` (affine.rs:128-137). -/
def AffPoint.multiply (p : AffPoint) (bits : List Bool) : Option AffPoint :=
  bits.reverse.foldl p.mulStep (some .identity)

/-- `AffinePoint::multiply_elm` (affine.rs:140-143). -/
def AffPoint.multiplyElm (p : AffPoint) (e : Limbs) : Option AffPoint := p.multiply (leBits fieldMod e)

end Verif.Crypto
