import Verif.Crypto.Limbs
/-!
# What the arithmetic of field elements should compute

Independent of how it is computed: an element is shown to the outside as a number below a prime (`to_be_bytes`), and the
operations are described on these numbers.
-/
namespace Verif.Crypto

/-- The two element types: `MontFelt` and `CurveOrderMontFelt`. -/
inductive Kind
  | felt
  | scalar
  deriving DecidableEq

/-- The constants that the code uses for an element type. -/
def Kind.modulus : Kind → Modulus
  | .felt => fieldMod
  | .scalar => orderMod

/-- The prime of an element type: the Stark field prime, and the number of points of the Stark curve. -/
def Kind.prime : Kind → Nat
  | .felt => 2 ^ 251 + 17 * 2 ^ 192 + 1
  | .scalar => 0x800000000000010ffffffffffffffffb781126dcae7b2321e66a241adc64d2f

/-- The representations that the program uses: four `u64`s whose number is below the prime. -/
structure Elem (k : Kind) (x : Limbs) : Prop where
  u64 : x.Ok
  reduced : x.nat < k.prime

/-- The number that an element is shown as: the limbs that `to_be_bytes` writes out. -/
def value (k : Kind) (x : Limbs) : Nat := (toNative k.modulus x).nat

end Verif.Crypto
