import Verif.Crypto.Curve
import Verif.Crypto.Felt
import Verif.Crypto.Tables.G
import Verif.Crypto.Tables.P1
import Verif.Crypto.Tables.P2
import Verif.Crypto.Tables.P3
import Verif.Crypto.Tables.P4
/-!
# Multiplication with tables and the Pedersen hash

Model of `crates/crypto/src/algebra/curve/gen_mul.rs` and `crates/crypto/src/hash/pedersen`. `none` is a panic.
-/
namespace Verif.Crypto

/-- A list of points in the form of the generated tables: the numbers for `per` points each. -/
def rawPoints (per : Nat) (pieces : List Nat) : List (Nat × Nat) :=
  pieces.flatMap fun n => (List.range per).map fun j => (n / 2 ^ (512 * j) % 2 ^ 256, n / 2 ^ (512 * j + 256) % 2 ^ 256)

/-- The four `u64`s of a number, the lowest first. -/
def rawLimbs (n : Nat) : Limbs := ⟨n % W, n / W % W, n / W ^ 2 % W, n / W ^ 3 % W⟩

/-- `AffinePoint::from_raw` (affine.rs:30-38). -/
def AffPoint.fromRaw (q : Nat × Nat) : AffPoint := ⟨rawLimbs q.1, rawLimbs q.2, false⟩

/-- A table as the array of its points. -/
def tablePoints (per : Nat) (chunks : List (List Nat)) : List AffPoint :=
  (chunks.map (rawPoints per)).flatten.map .fromRaw

/-- `G_CONSTS` (algebra/curve/consts.rs:6). -/
def tableG : List AffPoint := tablePoints 15 rawG
/-- `CURVE_CONSTS_P1` (hash/pedersen/consts.rs:6). -/
def tableP1 : List AffPoint := tablePoints 51 rawP1
/-- `CURVE_CONSTS_P2` (hash/pedersen/consts.rs:31630). -/
def tableP2 : List AffPoint := tablePoints 15 rawP2
/-- `CURVE_CONSTS_P3` (hash/pedersen/consts.rs:31694). -/
def tableP3 : List AffPoint := tablePoints 51 rawP3
/-- `CURVE_CONSTS_P4` (hash/pedersen/consts.rs:63318). -/
def tableP4 : List AffPoint := tablePoints 15 rawP4

/-- `load_le` of a bit slice with the least significant bit first (gen_mul.rs:18, pedersen/hash.rs:26). -/
def loadLe : List Bool → Nat
  | [] => 0
  | b :: l => b.toNat + 2 * loadLe l

/-- `chunks` of a bit slice (gen_mul.rs:17, pedersen/hash.rs:24): every chunk has `n` bits but the last may be shorter. -/
def bitChunks (n : Nat) (bits : List Bool) : List (List Bool) :=
  (List.range ((bits.length + n - 1) / n)).map fun i => (bits.drop (n * i)).take n

/-- The body of the loop of `add_points` (gen_mul.rs:18-22, pedersen/hash.rs:26-30). -/
def addChunk (n : Nat) (prep : List AffPoint) (acc : Option ProjPoint) (c : List Bool × Nat) : Option ProjPoint :=
  let offset := loadLe c.1
  if offset > 0 then acc.bind fun a => (prep[c.2 * (2 ^ n - 1) + offset - 1]?).map a.addAffine else acc

/-- `add_points` (gen_mul.rs:15-24, pedersen/hash.rs:22-33). -/
def addPoints (n : Nat) (prep : List AffPoint) (acc : Option ProjPoint) (bits : List Bool) : Option ProjPoint :=
  (bitChunks n bits).zipIdx.foldl (addChunk n prep) acc

/-- `ProjectivePoint::gen_multiply_elm` (gen_mul.rs:11-30); `G_CONSTS_BITS` is 4. -/
def ProjPoint.genMultiplyElm (x : Limbs) : Option ProjPoint := addPoints 4 tableG (some .identity) (leBits orderMod x)

/-- `AffinePoint::gen_multiply_elm` (gen_mul.rs:37-39). -/
def AffPoint.genMultiplyElm (x : Limbs) : Option AffPoint := (ProjPoint.genMultiplyElm x).bind AffPoint.ofProj

/-- `PEDERSEN_P0` (hash/pedersen/gens.rs:7-10). -/
def pedersenP0 : ProjPoint where
  x := hexConst 0x49ee3eba8c16007 0x00ee1b87eb599f16 0x716b0b1022947733 0x551fde4050ca6804
  y := hexConst 0x3ca0cfe4b3bc6dd 0xf346d49d06ea0ed3 0x4e621062c0e056c1 0xd0405d266e10268a
  z := fieldMod.R
  infinity := false

/-- The bits of a `Felt` with the least significant first: `to_le_bytes` and `view_bits::<Lsb0>` (pedersen/hash.rs:15-18). -/
def leViewBits (f : Bytes) : List Bool := f.reverse.flatMap fun b => (List.range 8).map b.testBit

/-- `pedersen_hash` (pedersen/hash.rs:14-46); `CURVE_CONSTS_BITS` is 8. -/
def pedersenHash (a b : Bytes) : Option Bytes :=
  let aBits := leViewBits a
  let bBits := leViewBits b
  let acc := addPoints 8 tableP1 (some pedersenP0) (aBits.take 248)
  let acc := addPoints 8 tableP2 acc ((aBits.drop 248).take 4)
  let acc := addPoints 8 tableP3 acc (bBits.take 248)
  let acc := addPoints 8 tableP4 acc ((bBits.drop 248).take 4)
  (acc.bind AffPoint.ofProj).bind fun p => feltOfMont fieldMod p.x

end Verif.Crypto
