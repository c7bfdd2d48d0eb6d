/-!
# Montgomery arithmetic on four 64-bit limbs

Model of `crates/crypto/src/algebra/field`. A `u64` is a natural number below `2^64` (`Limbs.Ok`), and every operation that
wraps around says so. The two element types `MontFelt` (`montfelt/`) and `CurveOrderMontFelt` (`curveorder/`) have the same
code for different constants; here the constants are a parameter `Modulus`. The `const` and the non-`const` variants of a
function compute the same values line by line (`mac` and `const_mac`, `acc` and `const_adc` with a zero, `adc` and
`const_adc`); one of them is modelled.
-/
namespace Verif.Crypto

/-- `2^64`, the number of `u64` values. -/
abbrev W : Nat := 18446744073709551616

/-- `MontFelt([u64; 4])` and `CurveOrderMontFelt([u64; 4])`, least significant limb first
(montfelt/mod.rs:18-19, curveorder/mod.rs:14-15). -/
structure Limbs where
  l0 : Nat
  l1 : Nat
  l2 : Nat
  l3 : Nat
  deriving DecidableEq, Repr

/-- The four limbs are `u64`s. -/
structure Limbs.Ok (x : Limbs) : Prop where
  l0 : x.l0 < W
  l1 : x.l1 < W
  l2 : x.l2 < W
  l3 : x.l3 < W

/-- The number that the limbs stand for. -/
def Limbs.nat (x : Limbs) : Nat := x.l0 + W * x.l1 + W ^ 2 * x.l2 + W ^ 3 * x.l3

/-- `u64::overflowing_add`, the carry as a number. -/
def overflowingAdd (a b : Nat) : Nat × Nat := ((a + b) % W, if a + b < W then 0 else 1)

/-- `u64::overflowing_sub`, the borrow as a number. -/
def overflowingSub (a b : Nat) : Nat × Nat := ((W + a - b) % W, if b ≤ a then 0 else 1)

/-- `const_adc` (core.rs:2-7); `c1 | c2` on bits is the maximum. -/
def adc (a b carry : Nat) : Nat × Nat :=
  let s := overflowingAdd a b
  let t := overflowingAdd s.1 carry
  (t.1, max s.2 t.2)

/-- `const_sbb` (core.rs:34-39). -/
def sbb (a b borrow : Nat) : Nat × Nat :=
  let s := overflowingSub a b
  let t := overflowingSub s.1 borrow
  (t.1, max s.2 t.2)

/-- `const_mac` (core.rs:57-62): the `u128` value of `a * b + c + carry`, low and high half. -/
def mac (a b c carry : Nat) : Nat × Nat :=
  let tmp := a * b + c + carry
  (tmp % W, tmp / W % W)

/-- The constants of an element type (montfelt/constants.rs, curveorder/constants.rs). -/
structure Modulus where
  P : Limbs
  R : Limbs
  R2 : Limbs
  M0 : Nat

/-- The constants of `MontFelt` (montfelt/constants.rs:6-28). -/
def fieldMod : Modulus where
  P := ⟨1, 0, 0, 576460752303423505⟩
  R := ⟨18446744073709551585, 18446744073709551615, 18446744073709551615, 576460752303422960⟩
  R2 := ⟨18446741271209837569, 5151653887, 18446744073700081664, 576413109808302096⟩
  M0 := 18446744073709551615

/-- The constants of `CurveOrderMontFelt` (curveorder/constants.rs:5-33). -/
def orderMod : Modulus where
  P := ⟨2190616671734353199, 13222870243701404210, 18446744073709551615, 576460752303423504⟩
  R := ⟨5877859471073257295, 14366136140576156654, 8, 576460752303422961⟩
  R2 := ⟨6927015553468754061, 5808788430323081401, 13470454832524147387, 565735549540988526⟩
  M0 := 13504954208620504625

/-- `ZERO` (montfelt/constants.rs:31, curveorder/constants.rs:36). -/
def zero : Limbs := ⟨0, 0, 0, 0⟩

/-- `const_add_noreduce` (additive.rs:7-18), the loop over four limbs written out. -/
def addNoreduce (a b : Limbs) : Limbs :=
  let s0 := adc a.l0 b.l0 0
  let s1 := adc a.l1 b.l1 s0.2
  let s2 := adc a.l2 b.l2 s1.2
  let s3 := adc a.l3 b.l3 s2.2
  ⟨s0.1, s1.1, s2.1, s3.1⟩

/-- `const_sub_noreduce` (additive.rs:22-33), the loop over four limbs written out. -/
def subNoreduce (a b : Limbs) : Limbs :=
  let s0 := sbb a.l0 b.l0 0
  let s1 := sbb a.l1 b.l1 s0.2
  let s2 := sbb a.l2 b.l2 s1.2
  let s3 := sbb a.l3 b.l3 s2.2
  ⟨s0.1, s1.1, s2.1, s3.1⟩

/-- One turn of the comparison loop (cmp.rs:35-39). -/
def limbCmp (a b : Nat) (next : Ordering) : Ordering := if a < b then .lt else if a > b then .gt else next

/-- `const_cmp` (montfelt/cmp.rs:31-42, curveorder/cmp.rs:36-49): from the most significant limb. -/
def cmp (a b : Limbs) : Ordering :=
  limbCmp a.l3 b.l3 (limbCmp a.l2 b.l2 (limbCmp a.l1 b.l1 (limbCmp a.l0 b.l0 .eq)))

/-- `const_gt` (montfelt/cmp.rs:52-54). -/
def gt (a b : Limbs) : Bool := cmp a b = .gt

/-- `const_geq` (montfelt/cmp.rs:58-60). -/
def geq (a b : Limbs) : Bool := cmp a b = .gt || cmp a b = .eq

/-- `const_lt` (montfelt/cmp.rs:64-66). -/
def lt (a b : Limbs) : Bool := cmp a b = .lt

/-- `is_zero` (montfelt/cmp.rs:8-10, curveorder/cmp.rs:6-8). -/
def isZero (a : Limbs) : Bool := a.l0 = 0 && a.l1 = 0 && a.l2 = 0 && a.l3 = 0

/-- `is_one` (montfelt/cmp.rs:14-19). -/
def isOne (m : Modulus) (a : Limbs) : Bool := a.l0 = m.R.l0 && a.l1 = m.R.l1 && a.l2 = m.R.l2 && a.l3 = m.R.l3

/-- `const_reduce_partial` (montfelt/reduce.rs:22-27, curveorder/reduce.rs:7-12). -/
def reducePartial (m : Modulus) (a : Limbs) : Limbs := if geq a m.P then subNoreduce a m.P else a

/-- `const_neg`, `negate` (montfelt/additive.rs:37-43 and 114-125). -/
def neg (m : Modulus) (a : Limbs) : Limbs := if isZero a then a else subNoreduce m.P a

/-- `const_add`, `add` (montfelt/additive.rs:54-57 and 143-154). -/
def add (m : Modulus) (a b : Limbs) : Limbs := reducePartial m (addNoreduce a b)

/-- `const_double`, `double` (montfelt/additive.rs:47-50 and 129-139). -/
def double (m : Modulus) (a : Limbs) : Limbs := reducePartial m (addNoreduce a a)

/-- `const_sub`, `sub` (montfelt/additive.rs:61-68 and 158-171). -/
def sub (m : Modulus) (a b : Limbs) : Limbs :=
  if gt b a then subNoreduce (addNoreduce a m.P) b else subNoreduce a b

/-- One of the four blocks of `const_mont_reduce` (montfelt/reduce.rs:54-59, 61-66, 68-73 and 75-80). It clears the lowest of
the limbs `r0 … r4` and returns the other four and the new `carry2`. -/
def montRound (m : Modulus) (r0 r1 r2 r3 r4 carry2 : Nat) : Nat × Nat × Nat × Nat × Nat :=
  let k := r0 * m.M0 % W
  let s0 := mac k m.P.l0 r0 0
  let s1 := mac k m.P.l1 r1 s0.2
  let s2 := mac k m.P.l2 r2 s1.2
  let s3 := mac k m.P.l3 r3 s2.2
  let s4 := adc r4 carry2 s3.2
  (s1.1, s2.1, s3.1, s4.1, s4.2)

/-- `const_mont_reduce`, `mont_reduce` (montfelt/reduce.rs:44-84 and 89-129, curveorder/reduce.rs:23-63). -/
def montReduce (m : Modulus) (r0 r1 r2 r3 r4 r5 r6 r7 : Nat) : Limbs :=
  let (r1, r2, r3, r4, c) := montRound m r0 r1 r2 r3 r4 0
  let (r2, r3, r4, r5, c) := montRound m r1 r2 r3 r4 r5 c
  let (r3, r4, r5, r6, c) := montRound m r2 r3 r4 r5 r6 c
  let (r4, r5, r6, r7, _) := montRound m r3 r4 r5 r6 r7 c
  reducePartial m ⟨r4, r5, r6, r7⟩

/-- One of the four blocks of `const_mul` (montfelt/multiplicative.rs:9-14, 17-22, 25-30 and 33-38). -/
def mulRow (a : Nat) (x : Limbs) (r0 r1 r2 r3 : Nat) : Nat × Nat × Nat × Nat × Nat :=
  let s0 := mac a x.l0 r0 0
  let s1 := mac a x.l1 r1 s0.2
  let s2 := mac a x.l2 r2 s1.2
  let s3 := mac a x.l3 r3 s2.2
  (s0.1, s1.1, s2.1, s3.1, s3.2)

/-- `const_mul`, `mul` (montfelt/multiplicative.rs:7-42 and 89-124, curveorder/multiplicative.rs:7-37). -/
def mul (m : Modulus) (a x : Limbs) : Limbs :=
  let (r0, r1, r2, r3, r4) := mulRow a.l0 x 0 0 0 0
  let (r1, r2, r3, r4, r5) := mulRow a.l1 x r1 r2 r3 r4
  let (r2, r3, r4, r5, r6) := mulRow a.l2 x r2 r3 r4 r5
  let (r3, r4, r5, r6, r7) := mulRow a.l3 x r3 r4 r5 r6
  montReduce m r0 r1 r2 r3 r4 r5 r6 r7

/-- `(hi << 1) | (lo >> 63)` on `u64`s: the two summands have no common bits. -/
def shl1 (hi lo : Nat) : Nat := hi * 2 % W + lo / 9223372036854775808

/-- `const_square`, `square` (montfelt/multiplicative.rs:46-84 and 128-167, curveorder/multiplicative.rs:78-113). -/
def square (m : Modulus) (a : Limbs) : Limbs :=
  let s1 := mac a.l0 a.l1 0 0
  let s2 := mac a.l0 a.l2 0 s1.2
  let s3 := mac a.l0 a.l3 0 s2.2
  let r4 := s3.2
  let t3 := mac a.l1 a.l2 s3.1 0
  let t4 := mac a.l1 a.l3 r4 t3.2
  let r5 := t4.2
  let u5 := mac a.l2 a.l3 r5 0
  let r6 := u5.2
  let d7 := r6 / 9223372036854775808
  let d6 := shl1 r6 u5.1
  let d5 := shl1 u5.1 t4.1
  let d4 := shl1 t4.1 t3.1
  let d3 := shl1 t3.1 s2.1
  let d2 := shl1 s2.1 s1.1
  let d1 := s1.1 * 2 % W
  let e0 := mac a.l0 a.l0 0 0
  let e1 := adc d1 0 e0.2
  let e2 := mac a.l1 a.l1 d2 e1.2
  let e3 := adc d3 0 e2.2
  let e4 := mac a.l2 a.l2 d4 e3.2
  let e5 := adc d5 0 e4.2
  let e6 := mac a.l3 a.l3 d6 e5.2
  let e7 := adc d7 0 e6.2
  montReduce m e0.1 e1.1 e2.1 e3.1 e4.1 e5.1 e6.1 e7.1

/-- `reduce_full`, `to_native` (montfelt/reduce.rs:31-39, montfelt/mont.rs:6-14): out of the Montgomery form. -/
def toNative (m : Modulus) (a : Limbs) : Limbs := montReduce m a.l0 a.l1 a.l2 a.l3 0 0 0 0

/-- `from_native`, the last line of `from_be_bytes` (montfelt/mont.rs:18-32, montfelt/convert.rs:20-21): into the Montgomery
form. -/
def fromNative (m : Modulus) (a : Limbs) : Limbs := mul m a m.R2

/-- `PartialOrd` of the element types compares native values (montfelt/cmp.rs:23-27 and 75-85, curveorder/cmp.rs:20-35 and
77-86). -/
def cmpNative (m : Modulus) (a b : Limbs) : Ordering := cmp (toNative m a) (toNative m b)

/-- `is_even` (montfelt/parity.rs:10-12). -/
def isEven (a : Limbs) : Bool := a.l0 % 2 = 0

/-- `div2` (montfelt/division.rs:5-12); `x << 63` keeps the lowest bit and the summands have no common bits. -/
def div2 (a : Limbs) : Limbs :=
  ⟨a.l0 / 2 + a.l1 * 9223372036854775808 % W, a.l1 / 2 + a.l2 * 9223372036854775808 % W,
    a.l2 / 2 + a.l3 * 9223372036854775808 % W, a.l3 / 2⟩

/-- `[1u64, 0, 0, 0]` (montfelt/inverse.rs:13). -/
def rawOne : Limbs := ⟨1, 0, 0, 0⟩

/-- The body of the inner loops of `inverse` for `b` and `c` (montfelt/inverse.rs:24-29 and 34-39). -/
def halve (m : Modulus) (b : Limbs) : Limbs := if isEven b then div2 b else div2 (addNoreduce b m.P)

/-- The inner loops `while u.is_even()` of `inverse` (montfelt/inverse.rs:22-30 and 32-40), at most `fuel` turns; `none`
means that the loop has not ended by then. -/
def halveLoop (m : Modulus) : Nat → Limbs → Limbs → Option (Limbs × Limbs)
  | 0, _, _ => none
  | fuel + 1, u, b => if isEven u then halveLoop m fuel (div2 u) (halve m b) else some (u, b)

/-- The outer loop of `inverse` (montfelt/inverse.rs:21-55), at most `fuel` turns; `none` means that a loop has not ended by
then. -/
def invLoop (m : Modulus) : Nat → Limbs → Limbs → Limbs → Limbs → Option Limbs
  | 0, _, _, _, _ => none
  | fuel + 1, u, v, b, c =>
    if u ≠ rawOne ∧ v ≠ rawOne then
      match halveLoop m 256 u b, halveLoop m 256 v c with
      | some (u, b), some (v, c) =>
        if lt v u then invLoop m fuel (subNoreduce u v) v (sub m b c) c
        else invLoop m fuel u (subNoreduce v u) b (sub m c b)
      | _, _ => none
    else some (if u = rawOne then b else c)

/-- The result of a function with loops: an answer, or no answer within the given number of turns. -/
abbrev Result (α : Type) := Option α

/-- `inverse` (montfelt/inverse.rs:9-57, curveorder/inverse.rs:9-57): the inner `Option` is the one of the code, the outer
`none` would be an endless loop. -/
def inverse (m : Modulus) (a : Limbs) : Result (Option Limbs) :=
  if isZero a then some none else (invLoop m 512 a m.P m.R2 zero).map some

end Verif.Crypto
