import Verif.Crypto.SqrtLemmas
import Verif.Crypto.FieldSpec
/-! # C29, C30 and C31: the arithmetic of field elements -/
namespace Verif.Crypto

theorem prime_eq (k : Kind) : k.modulus.P.nat = k.prime := by cases k <;> decide +kernel

theorem modulus_good (k : Kind) : k.modulus.Good := by
  cases k
  · exact fieldMod_good
  · exact orderMod_good

instance (k : Kind) : Fact k.modulus.P.nat.Prime := by
  cases k
  · exact inferInstanceAs (Fact fieldMod.P.nat.Prime)
  · exact inferInstanceAs (Fact orderMod.P.nat.Prime)

theorem Elem.canon {k : Kind} {x : Limbs} (h : Elem k x) : Canon k.modulus x := ⟨h.u64, prime_eq k ▸ h.reduced⟩
theorem Elem.of {k : Kind} {x : Limbs} (h : Canon k.modulus x) : Elem k x := ⟨h.ok, prime_eq k ▸ h.lt⟩

theorem value_fe {k : Kind} {x : Limbs} (h : x.Ok) : (value k x : Fld k.modulus) = fe k.modulus x :=
  fe_toNative (modulus_good k) h

theorem value_lt {k : Kind} {x : Limbs} (h : x.Ok) : value k x < k.prime :=
  prime_eq k ▸ (toNative_spec (modulus_good k) h).1.lt

theorem value_eq {k : Kind} {x : Limbs} {n : Nat} (h : x.Ok) (e : fe k.modulus x = (n : Fld k.modulus)) :
    value k x = n % k.prime := by
  have h1 := (ZMod.natCast_eq_natCast_iff' _ _ _).1 ((value_fe h).trans e)
  rw [prime_eq, Nat.mod_eq_of_lt (value_lt h)] at h1
  exact h1

/-- Both moduli are primes. -/
theorem C29_prime (k : Kind) : Nat.Prime k.prime := prime_eq k ▸ Fact.out

/-- An element is shown as a number below the prime. -/
theorem C29_value_lt {k : Kind} {x : Limbs} (h : Elem k x) : value k x < k.prime := value_lt h.u64

/-- Elements that are shown as the same number are equal, limb for limb: the derived `Eq` and `Hash` are right. -/
theorem C29_value_inj {k : Kind} {x y : Limbs} (hx : Elem k x) (hy : Elem k y) : value k x = value k y ↔ x = y := by
  refine ⟨fun h => ?_, fun h => by rw [h]⟩
  refine (fe_inj (modulus_good k) hx.canon hy.canon).1 ?_
  rw [← value_fe hx.u64, ← value_fe hy.u64, h]

/-- `from_be_bytes` of any four limbs is an element, shown as the number modulo the prime. -/
theorem C29_from_bytes {k : Kind} {x : Limbs} (h : x.Ok) :
    Elem k (fromNative k.modulus x) ∧ value k (fromNative k.modulus x) = x.nat % k.prime := by
  have hc := (fromNative_spec (modulus_good k) h).1
  exact ⟨.of hc, value_eq hc.ok (fe_fromNative (modulus_good k) h)⟩

theorem C29_zero (k : Kind) : Elem k zero ∧ value k zero = 0 := by
  have hc := (zero_canon (modulus_good k)).1
  refine ⟨.of hc, ?_⟩
  rw [value_eq hc.ok (n := 0) (by rw [fe_zero (modulus_good k)]; simp), Nat.zero_mod]

theorem C29_one (k : Kind) : Elem k k.modulus.R ∧ value k k.modulus.R = 1 := by
  have hc := R_canon (modulus_good k)
  refine ⟨.of hc, ?_⟩
  rw [value_eq hc.ok (n := 1) (by rw [fe_one (modulus_good k)]; simp), Nat.mod_eq_of_lt (C29_prime k).one_lt]

theorem C29_add {k : Kind} {a b : Limbs} (ha : Elem k a) (hb : Elem k b) :
    Elem k (add k.modulus a b) ∧ value k (add k.modulus a b) = (value k a + value k b) % k.prime := by
  have hc := ha.canon.add (modulus_good k) hb.canon
  refine ⟨.of hc, value_eq hc.ok ?_⟩
  rw [fe_add (modulus_good k) ha.canon hb.canon, Nat.cast_add, value_fe ha.u64, value_fe hb.u64]

theorem C29_sub {k : Kind} {a b : Limbs} (ha : Elem k a) (hb : Elem k b) :
    Elem k (sub k.modulus a b) ∧ value k (sub k.modulus a b) = (value k a + (k.prime - value k b)) % k.prime := by
  have hc := ha.canon.sub (modulus_good k) hb.canon
  refine ⟨.of hc, value_eq hc.ok ?_⟩
  rw [fe_sub (modulus_good k) ha.canon hb.canon, Nat.cast_add, value_fe ha.u64, Nat.cast_sub (value_lt hb.u64).le,
    value_fe hb.u64, ← prime_eq k, ZMod.natCast_self, zero_sub, sub_eq_add_neg]

theorem C29_neg {k : Kind} {a : Limbs} (ha : Elem k a) :
    Elem k (neg k.modulus a) ∧ value k (neg k.modulus a) = (k.prime - value k a) % k.prime := by
  have hc := ha.canon.neg (modulus_good k)
  refine ⟨.of hc, value_eq hc.ok ?_⟩
  rw [fe_neg (modulus_good k) ha.canon, Nat.cast_sub (value_lt ha.u64).le, value_fe ha.u64, ← prime_eq k,
    ZMod.natCast_self, zero_sub]

theorem C29_double {k : Kind} {a : Limbs} (ha : Elem k a) :
    Elem k (double k.modulus a) ∧ value k (double k.modulus a) = (2 * value k a) % k.prime := by
  have hc := ha.canon.double (modulus_good k)
  refine ⟨.of hc, value_eq hc.ok ?_⟩
  rw [fe_double (modulus_good k) ha.canon, Nat.cast_mul, value_fe ha.u64, Nat.cast_ofNat]

theorem C29_mul {k : Kind} {a b : Limbs} (ha : Elem k a) (hb : Elem k b) :
    Elem k (mul k.modulus a b) ∧ value k (mul k.modulus a b) = (value k a * value k b) % k.prime := by
  have hc := ha.canon.mul (modulus_good k) hb.canon
  refine ⟨.of hc, value_eq hc.ok ?_⟩
  rw [fe_mul (modulus_good k) ha.canon hb.canon, Nat.cast_mul, value_fe ha.u64, value_fe hb.u64]

theorem C29_square {k : Kind} {a : Limbs} (ha : Elem k a) :
    Elem k (square k.modulus a) ∧ value k (square k.modulus a) = (value k a * value k a) % k.prime := by
  have hc := ha.canon.square (modulus_good k)
  refine ⟨.of hc, value_eq hc.ok ?_⟩
  rw [fe_square (modulus_good k) ha.canon, Nat.cast_mul, value_fe ha.u64, pow_two]

/-- The ordering of elements is the ordering of the numbers. -/
theorem C29_cmp {k : Kind} {a b : Limbs} (ha : Elem k a) (hb : Elem k b) :
    cmpNative k.modulus a b = compare (value k a) (value k b) :=
  cmp_spec (toNative_spec (modulus_good k) ha.u64).1.ok (toNative_spec (modulus_good k) hb.u64).1.ok

theorem C29_is_zero {k : Kind} {a : Limbs} (ha : Elem k a) : isZero a = true ↔ value k a = 0 := by
  rw [isZero_fe (modulus_good k) ha.canon, ← fe_zero (modulus_good k), fe_inj (modulus_good k) ha.canon (C29_zero k).1.canon,
    ← C29_value_inj ha (C29_zero k).1, (C29_zero k).2]

theorem C29_is_one {k : Kind} {a : Limbs} (ha : Elem k a) : isOne k.modulus a = true ↔ value k a = 1 := by
  rw [isOne_fe (modulus_good k) ha.canon, ← fe_one (modulus_good k), fe_inj (modulus_good k) ha.canon (C29_one k).1.canon,
    ← C29_value_inj ha (C29_one k).1, (C29_one k).2]

/-- Every number below the prime is shown by an element. -/
theorem C29_surjective {k : Kind} {n : Nat} (h : n < k.prime) : ∃ x, Elem k x ∧ value k x = n := by
  have hp : k.prime < W ^ 4 := by cases k <;> decide +kernel
  have hn : n < W ^ 4 := by omega
  have ok : Limbs.Ok ⟨n % W, n / W % W, n / W ^ 2 % W, n / W ^ 3⟩ :=
    ⟨Nat.mod_lt _ (by decide), Nat.mod_lt _ (by decide), Nat.mod_lt _ (by decide), by
      show n / W ^ 3 < W
      rw [Nat.div_lt_iff_lt_mul (by decide)]; omega⟩
  have e : Limbs.nat ⟨n % W, n / W % W, n / W ^ 2 % W, n / W ^ 3⟩ = n := by
    unfold Limbs.nat
    have h1 := Nat.div_add_mod n W
    have h2 := Nat.div_add_mod (n / W) W
    have h3 := Nat.div_add_mod (n / W ^ 2) W
    have e2 : n / W / W = n / W ^ 2 := by rw [Nat.div_div_eq_div_mul, pow_two]
    have e3 : n / W ^ 2 / W = n / W ^ 3 := by rw [Nat.div_div_eq_div_mul, ← pow_succ]
    rw [e2] at h2
    rw [e3] at h3
    simp only
    linear_combination h1 + W * h2 + W ^ 2 * h3
  refine ⟨_, (C29_from_bytes ok).1, ?_⟩
  rw [(C29_from_bytes ok).2, e, Nat.mod_eq_of_lt h]

/-- A concrete case: with `a = p - 1` and `b = 2` the sum is one, with the limbs that the program holds. -/
example : Elem .felt (fromNative fieldMod ⟨0, 0, 0, 576460752303423505⟩) ∧ Elem .felt (fromNative fieldMod ⟨2, 0, 0, 0⟩) ∧
    value .felt (add fieldMod (fromNative fieldMod ⟨0, 0, 0, 576460752303423505⟩) (fromNative fieldMod ⟨2, 0, 0, 0⟩)) = 1 ∧
    value .felt (mul fieldMod (fromNative fieldMod ⟨0, 0, 0, 576460752303423505⟩) (fromNative fieldMod ⟨2, 0, 0, 0⟩)) =
      Kind.felt.prime - 2 :=
  ⟨(C29_from_bytes (k := .felt) ⟨by decide, by decide, by decide, by decide⟩).1,
    (C29_from_bytes (k := .felt) ⟨by decide, by decide, by decide, by decide⟩).1, by decide +kernel, by decide +kernel⟩

/-- `inverse` returns nothing for zero. -/
theorem C30_zero {k : Kind} {a : Limbs} (ha : Elem k a) (h : value k a = 0) : inverse k.modulus a = some none := by
  refine inverse_zero (modulus_good k) ha.canon ?_
  rw [← value_fe ha.u64, h]; simp

/-- `inverse` ends for every other element, with the one element whose product with the argument is one. -/
theorem C30_inverse {k : Kind} {a : Limbs} (ha : Elem k a) (h : value k a ≠ 0) :
    ∃ r, inverse k.modulus a = some (some r) ∧ Elem k r ∧ (value k a * value k r) % k.prime = 1 ∧
      ∀ n < k.prime, (value k a * n) % k.prime = 1 → n = value k r := by
  have hne : fe k.modulus a ≠ 0 := by
    intro h0
    apply h
    rw [value_eq ha.u64 (n := 0) (by rw [h0]; simp), Nat.zero_mod]
  obtain ⟨r, e, c, h1⟩ := inverse_spec (modulus_good k) ha.canon hne
  refine ⟨r, e, .of c, ?_, ?_⟩
  · have h2 : ((value k a * value k r : Nat) : Fld k.modulus) = ((1 : Nat) : Fld k.modulus) := by
      rw [Nat.cast_mul, value_fe ha.u64, value_fe c.ok, h1, Nat.cast_one]
    have h3 := (ZMod.natCast_eq_natCast_iff' _ _ _).1 h2
    rw [prime_eq, Nat.mod_eq_of_lt (C29_prime k).one_lt] at h3
    exact h3
  · intro n hn h2
    have h3 : ((value k a * n : Nat) : Fld k.modulus) = ((1 : Nat) : Fld k.modulus) := by
      refine (ZMod.natCast_eq_natCast_iff' _ _ _).2 ?_
      rw [prime_eq, Nat.mod_eq_of_lt (C29_prime k).one_lt, h2]
    rw [Nat.cast_mul, value_fe ha.u64, Nat.cast_one] at h3
    have h4 : fe k.modulus r = (n : Fld k.modulus) := mul_left_cancel₀ hne (h1.trans h3.symm)
    rw [value_eq c.ok h4, Nat.mod_eq_of_lt hn]

/-- A concrete case: the inverse of two. -/
example : value .felt (fromNative fieldMod ⟨2, 0, 0, 0⟩) ≠ 0 ∧
    (inverse fieldMod (fromNative fieldMod ⟨2, 0, 0, 0⟩)).map (·.map (value .felt)) = some (some ((Kind.felt.prime + 1) / 2)) := by
  decide +kernel

/-- `sqrt` ends for every element: with a root if there is one, and with nothing if there is none. -/
theorem C31_sqrt {a : Limbs} (ha : Elem .felt a) :
    (∃ r, sqrt a = some (some r) ∧ Elem .felt r ∧ (value .felt r * value .felt r) % Kind.felt.prime = value .felt a) ∨
    (sqrt a = some none ∧ ∀ n, (n * n) % Kind.felt.prime ≠ value .felt a) := by
  rcases sqrt_spec ha.canon with ⟨r, e, c, h⟩ | ⟨e, h⟩
  · left
    refine ⟨r, e, .of c, ?_⟩
    symm
    refine value_eq ha.u64 ?_
    show fe fieldMod a = _
    rw [← h, Nat.cast_mul, value_fe (k := .felt) c.ok, pow_two]; rfl
  · right
    refine ⟨e, fun n hn => h n ?_⟩
    have := value_fe (k := .felt) ha.u64
    rw [← hn, ← prime_eq, cast_mod] at this
    rw [pow_two, ← Nat.cast_mul]; exact this

/-- Concrete cases: minus one has a root and three has none. -/
example : (sqrt (fromNative fieldMod ⟨0, 0, 0, 576460752303423505⟩)).map (·.map fun r => value .felt (square fieldMod r)) =
    some (some (Kind.felt.prime - 1)) ∧ sqrt (fromNative fieldMod ⟨3, 0, 0, 0⟩) = some none := by decide +kernel

end Verif.Crypto
