import Verif.Crypto.CurveSpec
/-!
# The Pedersen hash

The definition of <https://docs.starkware.co/starkex/crypto/pedersen-hash-function.html>: five points of the Stark curve, and the
first coordinate of a combination of them.
-/
namespace Verif.Crypto

/-- The five published points. -/
structure PedersenPoints (P0 P1 P2 P3 P4 : StarkPoint) : Prop where
  p0 : HasCoords P0 (0x49ee3eba8c1600700ee1b87eb599f16716b0b1022947733551fde4050ca6804 : Nat)
    (0x3ca0cfe4b3bc6ddf346d49d06ea0ed34e621062c0e056c1d0405d266e10268a : Nat)
  p1 : HasCoords P1 (0x234287dcbaffe7f969c748655fca9e58fa8120b6d56eb0c1080d17957ebe47b : Nat)
    (0x3b056f100f96fb21e889527d41f4e39940135dd7a6c94cc6ed0268ee89e5615 : Nat)
  p2 : HasCoords P2 (0x4fa56f376c83db33f9dab2656558f3399099ec1de5e3018b7a6932dba8aa378 : Nat)
    (0x3fa0984c931c9e38113e0c0e47e4401562761f92a7a23b45168f4e80ff5b54d : Nat)
  p3 : HasCoords P3 (0x4ba4cc166be8dec764910f75b45f74b40c690c74709e90f3aa372f0bd2d6997 : Nat)
    (0x40301cf5c1751f4b971e46c4ede85fcac5c59a5ce5ae7c48151f27b24b219c : Nat)
  p4 : HasCoords P4 (0x54302dcb0e6cc1c6e44cca8f61a63bb2ca65048d53fb325d36ff12c49a58202 : Nat)
    (0x1b77b3e37d13504b348046268d8ae25ce98ad783c25561a879dcc77e99c2426 : Nat)

/-- The point whose first coordinate is the hash of `a` and `b`: the low 248 bits and the high 4 bits of each have a point of their
own. -/
def pedersenPoint (P0 P1 P2 P3 P4 : StarkPoint) (a b : Nat) : StarkPoint :=
  P0 + (a % 2 ^ 248) • P1 + (a / 2 ^ 248) • P2 + (b % 2 ^ 248) • P3 + (b / 2 ^ 248) • P4

end Verif.Crypto
