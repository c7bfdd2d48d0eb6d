import Verif.Crypto.Limbs
/-! # Powers and square roots of field elements -/
namespace Verif.Crypto

/-- Limb number `i` (`s.as_ref()[part]`, bits.rs:32). -/
def limb (e : Limbs) : Nat → Nat
  | 0 => e.l0
  | 1 => e.l1
  | 2 => e.l2
  | _ => e.l3

/-- `BitIteratorBE::next` until it ends, from position `n` (bits.rs:25-35): the bits below `n`, highest first. -/
def bitsBE (e : Limbs) : Nat → List Bool
  | 0 => []
  | n + 1 => (limb e (n / 64)).testBit (n - 64 * (n / 64)) :: bitsBE e n

/-- `BitIteratorBE::without_leading_zeros` (bits.rs:16-18) for four limbs. -/
def bitsNoLeadingZeros (e : Limbs) : List Bool := (bitsBE e 256).dropWhile (!·)

/-- The loop of `pow` (montfelt/pow.rs:8-13). -/
def powLoop (m : Modulus) (a : Limbs) (res : Limbs) : List Bool → Limbs
  | [] => res
  | i :: bits =>
    let res := square m res
    powLoop m a (if i then mul m res a else res) bits

/-- `pow` (montfelt/pow.rs:6-15). -/
def pow (m : Modulus) (a e : Limbs) : Limbs := powLoop m a m.R (bitsNoLeadingZeros e)

/-- `SQRT_S` (montfelt/constants.rs:43). -/
def sqrtS : Nat := 192

/-- `SQRT_T_MINUS_ONE_DIV2` (montfelt/constants.rs:46). -/
def sqrtT : Limbs := ⟨288230376151711752, 0, 0, 0⟩

/-- `SQRT_Z` (montfelt/constants.rs:52-57). -/
def sqrtZ : Limbs := ⟨4685640052668284376, 12298664652803292137, 735711535595279732, 514024103053294630⟩

/-- The inner loop `while !b2k.is_one()` (montfelt/sqrt.rs:24-27), at most `fuel` tests; `none` means that it has not ended by
then. -/
def orderLoop (m : Modulus) : Nat → Limbs → Nat → Result Nat
  | 0, _, _ => none
  | fuel + 1, b2k, k => if isOne m b2k then some k else orderLoop m fuel (square m b2k) (k + 1)

/-- `for _ in 1..j { w = w.square() }` (montfelt/sqrt.rs:35-37) with `n = j - 1` turns. -/
def squareTimes (m : Modulus) : Nat → Limbs → Limbs
  | 0, w => w
  | n + 1, w => squareTimes m n (square m w)

/-- The loop of `sqrt` (montfelt/sqrt.rs:19-46), at most `fuel` tests. The subtraction `v - k` of `u32`s would panic for
`v < k`; this is an outer `none` as well. -/
def sqrtLoop (m : Modulus) : Nat → Limbs → Limbs → Limbs → Nat → Result (Option Limbs)
  | 0, _, _, _, _ => none
  | fuel + 1, z, b, x, v =>
    if isOne m b then some (some x)
    else
      match orderLoop m 256 b 0 with
      | none => none
      | some k =>
        if k = sqrtS then some none
        else if v < k then none
        else
          let w := squareTimes m (v - k - 1) z
          let z := square m w
          sqrtLoop m fuel z (mul m b z) (mul m x w) k

/-- `sqrt` (montfelt/sqrt.rs:7-47): the inner `Option` is the one of the code, the outer `none` would be an endless loop or a
panic. -/
def sqrt (a : Limbs) : Result (Option Limbs) :=
  if isZero a then some (some zero)
  else
    let w := pow fieldMod a sqrtT
    let x := mul fieldMod w a
    let b := mul fieldMod x w
    sqrtLoop fieldMod 256 sqrtZ b x sqrtS

end Verif.Crypto
