import Mathlib.NumberTheory.LucasPrimality
import Mathlib.Tactic.NormNum.Prime
/-!
# The two primes

The field prime and the curve order are prime: Pratt certificates, the modular powers evaluated by the kernel.
-/
namespace Verif.Crypto

/-- Square and multiply with `fuel` bits of the exponent. -/
def powModAux : Nat → Nat → Nat → Nat → Nat → Nat
  | 0, _, _, _, acc => acc
  | f + 1, b, e, m, acc => powModAux f (b * b % m) (e / 2) m (if e % 2 = 1 then acc * b % m else acc)

/-- `b ^ e % m` for exponents below `2^256`. -/
def powMod (b e m : Nat) : Nat := powModAux 256 b e m (1 % m)

theorem powModAux_spec (f b e m acc : Nat) (he : e < 2 ^ f) (ha : acc % m = acc) :
    powModAux f b e m acc = acc * b ^ e % m := by
  induction f generalizing b e acc with
  | zero =>
    have : e = 0 := by simpa using he
    subst this
    simp [powModAux, ha]
  | succ f ih =>
    have h2 : e / 2 < 2 ^ f := by rw [pow_succ] at he; omega
    have hb : (b * b % m) ^ (e / 2) ≡ b ^ (2 * (e / 2)) [MOD m] := by
      rw [pow_mul, pow_two]
      exact (Nat.mod_modEq _ _).pow _
    unfold powModAux
    split
    · next h =>
      rw [ih _ _ _ h2 (Nat.mod_mod _ _)]
      have : b ^ e = b * b ^ (2 * (e / 2)) := by
        rw [← pow_succ']; congr 1; omega
      rw [this, ← Nat.mul_assoc]
      exact (Nat.mod_modEq _ _).mul hb
    · next h =>
      rw [ih _ _ _ h2 ha]
      have : b ^ e = b ^ (2 * (e / 2)) := by congr 1; omega
      rw [this]
      exact hb.mul_left _

theorem powMod_spec {b e m : Nat} (he : e < 2 ^ 256) : powMod b e m = b ^ e % m := by
  rw [powMod, powModAux_spec _ _ _ _ _ he (Nat.mod_mod _ _)]
  conv_rhs => rw [← Nat.one_mul (b ^ e)]
  exact (Nat.mod_modEq 1 m).mul_right _

theorem dvd_prod_pow {q : Nat} (hq : q.Prime) : ∀ l : List (Nat × Nat), (∀ f ∈ l, f.1.Prime) →
    q ∣ (l.map fun f => f.1 ^ f.2).prod → ∃ f ∈ l, q = f.1
  | [], _, h => absurd (Nat.dvd_one.1 h) hq.ne_one
  | f :: l, hl, h => by
    rw [List.map_cons, List.prod_cons] at h
    rcases (Nat.Prime.dvd_mul hq).1 h with h | h
    · exact ⟨f, List.mem_cons_self, (Nat.prime_dvd_prime_iff_eq hq (hl f List.mem_cons_self)).1 (hq.dvd_of_dvd_pow h)⟩
    · obtain ⟨g, hg, e⟩ := dvd_prod_pow hq l (fun f hf => hl f (List.mem_cons_of_mem _ hf)) h
      exact ⟨g, List.mem_cons_of_mem _ hg, e⟩

/-- A primality certificate: a generator and the factors of `p - 1`. -/
theorem pratt (p a : Nat) (l : List (Nat × Nat)) (h1 : 1 < p ∧ p < 2 ^ 256)
    (hp : (l.map fun f => f.1 ^ f.2).prod = p - 1) (hl : ∀ f ∈ l, f.1.Prime) (ha : powMod a (p - 1) p = 1)
    (hq : ∀ f ∈ l, powMod a ((p - 1) / f.1) p ≠ 1) : p.Prime := by
  have key : ∀ e, e < 2 ^ 256 → ((a : ZMod p) ^ e = 1 ↔ powMod a e p = 1) := by
    intro e he
    rw [powMod_spec he, ← Nat.cast_pow, ← Nat.cast_one (R := ZMod p), ZMod.natCast_eq_natCast_iff', Nat.mod_eq_of_lt h1.1]
  refine lucas_primality p a ((key _ (by omega)).2 ha) ?_
  intro q hqp hd
  obtain ⟨f, hf, rfl⟩ := dvd_prod_pow hqp l hl (hp ▸ hd)
  have hlt : (p - 1) / f.1 < 2 ^ 256 := lt_of_le_of_lt (Nat.div_le_self _ _) (by omega)
  exact fun h => hq f hf ((key _ hlt).1 h)

theorem prime_2 : Nat.Prime 2 := by norm_num

theorem prime_5 : Nat.Prime 5 := by norm_num

theorem prime_7 : Nat.Prime 7 := by norm_num

theorem prime_17 : Nat.Prime 17 := by norm_num

theorem prime_43 : Nat.Prime 43 := by norm_num

theorem prime_211 : Nat.Prime 211 := by norm_num

theorem prime_1233929 : Nat.Prime 1233929 := by
  refine pratt 1233929 6 [(2, 3), (17, 1), (43, 1), (211, 1)] (by decide +kernel) (by decide +kernel) ?_ (by decide +kernel) (by decide +kernel)
  simp only [List.forall_mem_cons, List.not_mem_nil, false_imp_iff, implies_true, and_true]
  exact ⟨prime_2, prime_17, prime_43, prime_211⟩

theorem prime_2467859 : Nat.Prime 2467859 := by
  refine pratt 2467859 2 [(2, 1), (1233929, 1)] (by decide +kernel) (by decide +kernel) ?_ (by decide +kernel) (by decide +kernel)
  simp only [List.forall_mem_cons, List.not_mem_nil, false_imp_iff, implies_true, and_true]
  exact ⟨prime_2, prime_1233929⟩

theorem prime_4935719 : Nat.Prime 4935719 := by
  refine pratt 4935719 17 [(2, 1), (2467859, 1)] (by decide +kernel) (by decide +kernel) ?_ (by decide +kernel) (by decide +kernel)
  simp only [List.forall_mem_cons, List.not_mem_nil, false_imp_iff, implies_true, and_true]
  exact ⟨prime_2, prime_2467859⟩

theorem prime_98714381 : Nat.Prime 98714381 := by
  refine pratt 98714381 2 [(2, 2), (5, 1), (4935719, 1)] (by decide +kernel) (by decide +kernel) ?_ (by decide +kernel) (by decide +kernel)
  simp only [List.forall_mem_cons, List.not_mem_nil, false_imp_iff, implies_true, and_true]
  exact ⟨prime_2, prime_5, prime_4935719⟩

theorem prime_3 : Nat.Prime 3 := by norm_num

theorem prime_13 : Nat.Prime 13 := by norm_num

theorem prime_829 : Nat.Prime 829 := by norm_num

theorem prime_8291 : Nat.Prime 8291 := by
  refine pratt 8291 2 [(2, 1), (5, 1), (829, 1)] (by decide +kernel) (by decide +kernel) ?_ (by decide +kernel) (by decide +kernel)
  simp only [List.forall_mem_cons, List.not_mem_nil, false_imp_iff, implies_true, and_true]
  exact ⟨prime_2, prime_5, prime_829⟩

theorem prime_9269339 : Nat.Prime 9269339 := by
  refine pratt 9269339 6 [(2, 1), (13, 1), (43, 1), (8291, 1)] (by decide +kernel) (by decide +kernel) ?_ (by decide +kernel) (by decide +kernel)
  simp only [List.forall_mem_cons, List.not_mem_nil, false_imp_iff, implies_true, and_true]
  exact ⟨prime_2, prime_13, prime_43, prime_8291⟩

theorem prime_166848103 : Nat.Prime 166848103 := by
  refine pratt 166848103 6 [(2, 1), (3, 2), (9269339, 1)] (by decide +kernel) (by decide +kernel) ?_ (by decide +kernel) (by decide +kernel)
  simp only [List.forall_mem_cons, List.not_mem_nil, false_imp_iff, implies_true, and_true]
  exact ⟨prime_2, prime_3, prime_9269339⟩

theorem prime_P : Nat.Prime 3618502788666131213697322783095070105623107215331596699973092056135872020481 := by
  refine pratt 3618502788666131213697322783095070105623107215331596699973092056135872020481 3 [(2, 192), (5, 1), (7, 1), (98714381, 1), (166848103, 1)] (by decide +kernel) (by decide +kernel) ?_ (by decide +kernel) (by decide +kernel)
  simp only [List.forall_mem_cons, List.not_mem_nil, false_imp_iff, implies_true, and_true]
  exact ⟨prime_2, prime_5, prime_7, prime_98714381, prime_166848103⟩

theorem prime_11 : Nat.Prime 11 := by norm_num

theorem prime_49369 : Nat.Prime 49369 := by
  refine pratt 49369 13 [(2, 3), (3, 1), (11, 2), (17, 1)] (by decide +kernel) (by decide +kernel) ?_ (by decide +kernel) (by decide +kernel)
  simp only [List.forall_mem_cons, List.not_mem_nil, false_imp_iff, implies_true, and_true]
  exact ⟨prime_2, prime_3, prime_11, prime_17⟩

theorem prime_1481071 : Nat.Prime 1481071 := by
  refine pratt 1481071 3 [(2, 1), (3, 1), (5, 1), (49369, 1)] (by decide +kernel) (by decide +kernel) ?_ (by decide +kernel) (by decide +kernel)
  simp only [List.forall_mem_cons, List.not_mem_nil, false_imp_iff, implies_true, and_true]
  exact ⟨prime_2, prime_3, prime_5, prime_49369⟩

theorem prime_23 : Nat.Prime 23 := by norm_num

theorem prime_231169 : Nat.Prime 231169 := by
  refine pratt 231169 17 [(2, 8), (3, 1), (7, 1), (43, 1)] (by decide +kernel) (by decide +kernel) ?_ (by decide +kernel) (by decide +kernel)
  simp only [List.forall_mem_cons, List.not_mem_nil, false_imp_iff, implies_true, and_true]
  exact ⟨prime_2, prime_3, prime_7, prime_43⟩

theorem prime_74436419 : Nat.Prime 74436419 := by
  refine pratt 74436419 7 [(2, 1), (7, 1), (23, 1), (231169, 1)] (by decide +kernel) (by decide +kernel) ?_ (by decide +kernel) (by decide +kernel)
  simp only [List.forall_mem_cons, List.not_mem_nil, false_imp_iff, implies_true, and_true]
  exact ⟨prime_2, prime_7, prime_23, prime_231169⟩

theorem prime_523 : Nat.Prime 523 := by norm_num

theorem prime_131797 : Nat.Prime 131797 := by
  refine pratt 131797 5 [(2, 2), (3, 2), (7, 1), (523, 1)] (by decide +kernel) (by decide +kernel) ?_ (by decide +kernel) (by decide +kernel)
  simp only [List.forall_mem_cons, List.not_mem_nil, false_imp_iff, implies_true, and_true]
  exact ⟨prime_2, prime_3, prime_7, prime_523⟩

theorem prime_109 : Nat.Prime 109 := by norm_num

theorem prime_31393 : Nat.Prime 31393 := by
  refine pratt 31393 5 [(2, 5), (3, 2), (109, 1)] (by decide +kernel) (by decide +kernel) ?_ (by decide +kernel) (by decide +kernel)
  simp only [List.forall_mem_cons, List.not_mem_nil, false_imp_iff, implies_true, and_true]
  exact ⟨prime_2, prime_3, prime_109⟩

theorem prime_10108547 : Nat.Prime 10108547 := by
  refine pratt 10108547 2 [(2, 1), (7, 1), (23, 1), (31393, 1)] (by decide +kernel) (by decide +kernel) ?_ (by decide +kernel) (by decide +kernel)
  simp only [List.forall_mem_cons, List.not_mem_nil, false_imp_iff, implies_true, and_true]
  exact ⟨prime_2, prime_7, prime_23, prime_31393⟩

theorem prime_571 : Nat.Prime 571 := by norm_num

theorem prime_5711 : Nat.Prime 5711 := by
  refine pratt 5711 19 [(2, 1), (5, 1), (571, 1)] (by decide +kernel) (by decide +kernel) ?_ (by decide +kernel) (by decide +kernel)
  simp only [List.forall_mem_cons, List.not_mem_nil, false_imp_iff, implies_true, and_true]
  exact ⟨prime_2, prime_5, prime_571⟩

theorem prime_11423 : Nat.Prime 11423 := by
  refine pratt 11423 5 [(2, 1), (5711, 1)] (by decide +kernel) (by decide +kernel) ?_ (by decide +kernel) (by decide +kernel)
  simp only [List.forall_mem_cons, List.not_mem_nil, false_imp_iff, implies_true, and_true]
  exact ⟨prime_2, prime_5711⟩

theorem prime_22206313 : Nat.Prime 22206313 := by
  refine pratt 22206313 5 [(2, 3), (3, 5), (11423, 1)] (by decide +kernel) (by decide +kernel) ?_ (by decide +kernel) (by decide +kernel)
  simp only [List.forall_mem_cons, List.not_mem_nil, false_imp_iff, implies_true, and_true]
  exact ⟨prime_2, prime_3, prime_11423⟩

theorem prime_83 : Nat.Prime 83 := by norm_num

theorem prime_1789 : Nat.Prime 1789 := by norm_num

theorem prime_74837449 : Nat.Prime 74837449 := by
  refine pratt 74837449 13 [(2, 3), (3, 2), (7, 1), (83, 1), (1789, 1)] (by decide +kernel) (by decide +kernel) ?_ (by decide +kernel) (by decide +kernel)
  simp only [List.forall_mem_cons, List.not_mem_nil, false_imp_iff, implies_true, and_true]
  exact ⟨prime_2, prime_3, prime_7, prime_83, prime_1789⟩

theorem prime_53 : Nat.Prime 53 := by norm_num

theorem prime_47 : Nat.Prime 47 := by norm_num

theorem prime_463 : Nat.Prime 463 := by norm_num

theorem prime_565787 : Nat.Prime 565787 := by
  refine pratt 565787 2 [(2, 1), (13, 1), (47, 1), (463, 1)] (by decide +kernel) (by decide +kernel) ?_ (by decide +kernel) (by decide +kernel)
  simp only [List.forall_mem_cons, List.not_mem_nil, false_imp_iff, implies_true, and_true]
  exact ⟨prime_2, prime_13, prime_47, prime_463⟩

theorem prime_28547348873 : Nat.Prime 28547348873 := by
  refine pratt 28547348873 3 [(2, 3), (7, 1), (17, 1), (53, 1), (565787, 1)] (by decide +kernel) (by decide +kernel) ?_ (by decide +kernel) (by decide +kernel)
  simp only [List.forall_mem_cons, List.not_mem_nil, false_imp_iff, implies_true, and_true]
  exact ⟨prime_2, prime_7, prime_17, prime_53, prime_565787⟩

theorem prime_37 : Nat.Prime 37 := by norm_num

theorem prime_439 : Nat.Prime 439 := by norm_num

theorem prime_4391 : Nat.Prime 4391 := by
  refine pratt 4391 14 [(2, 1), (5, 1), (439, 1)] (by decide +kernel) (by decide +kernel) ?_ (by decide +kernel) (by decide +kernel)
  simp only [List.forall_mem_cons, List.not_mem_nil, false_imp_iff, implies_true, and_true]
  exact ⟨prime_2, prime_5, prime_439⟩

theorem prime_61 : Nat.Prime 61 := by norm_num

theorem prime_19 : Nat.Prime 19 := by norm_num

theorem prime_41 : Nat.Prime 41 := by norm_num

theorem prime_67 : Nat.Prime 67 := by norm_num

theorem prime_2887 : Nat.Prime 2887 := by
  refine pratt 2887 5 [(2, 1), (3, 1), (13, 1), (37, 1)] (by decide +kernel) (by decide +kernel) ?_ (by decide +kernel) (by decide +kernel)
  simp only [List.forall_mem_cons, List.not_mem_nil, false_imp_iff, implies_true, and_true]
  exact ⟨prime_2, prime_3, prime_13, prime_37⟩

theorem prime_11753132899 : Nat.Prime 11753132899 := by
  refine pratt 11753132899 3 [(2, 1), (3, 1), (13, 1), (19, 1), (41, 1), (67, 1), (2887, 1)] (by decide +kernel) (by decide +kernel) ?_ (by decide +kernel) (by decide +kernel)
  simp only [List.forall_mem_cons, List.not_mem_nil, false_imp_iff, implies_true, and_true]
  exact ⟨prime_2, prime_3, prime_13, prime_19, prime_41, prime_67, prime_2887⟩

theorem prime_12904939923103 : Nat.Prime 12904939923103 := by
  refine pratt 12904939923103 3 [(2, 1), (3, 2), (61, 1), (11753132899, 1)] (by decide +kernel) (by decide +kernel) ?_ (by decide +kernel) (by decide +kernel)
  simp only [List.forall_mem_cons, List.not_mem_nil, false_imp_iff, implies_true, and_true]
  exact ⟨prime_2, prime_3, prime_61, prime_11753132899⟩

theorem prime_1803099112058626586861 : Nat.Prime 1803099112058626586861 := by
  refine pratt 1803099112058626586861 2 [(2, 2), (5, 1), (37, 1), (43, 1), (4391, 1), (12904939923103, 1)] (by decide +kernel) (by decide +kernel) ?_ (by decide +kernel) (by decide +kernel)
  simp only [List.forall_mem_cons, List.not_mem_nil, false_imp_iff, implies_true, and_true]
  exact ⟨prime_2, prime_5, prime_37, prime_43, prime_4391, prime_12904939923103⟩

theorem prime_5470365079085120887157193270902448565659295524958143968059153 : Nat.Prime 5470365079085120887157193270902448565659295524958143968059153 := by
  refine pratt 5470365079085120887157193270902448565659295524958143968059153 15 [(2, 4), (3, 1), (131797, 1), (10108547, 1), (22206313, 1), (74837449, 1), (28547348873, 1), (1803099112058626586861, 1)] (by decide +kernel) (by decide +kernel) ?_ (by decide +kernel) (by decide +kernel)
  simp only [List.forall_mem_cons, List.not_mem_nil, false_imp_iff, implies_true, and_true]
  exact ⟨prime_2, prime_3, prime_131797, prime_10108547, prime_22206313, prime_74837449, prime_28547348873, prime_1803099112058626586861⟩

theorem prime_N : Nat.Prime 3618502788666131213697322783095070105526743751716087489154079457884512865583 := by
  refine pratt 3618502788666131213697322783095070105526743751716087489154079457884512865583 3 [(2, 1), (3, 1), (1481071, 1), (74436419, 1), (5470365079085120887157193270902448565659295524958143968059153, 1)] (by decide +kernel) (by decide +kernel) ?_ (by decide +kernel) (by decide +kernel)
  simp only [List.forall_mem_cons, List.not_mem_nil, false_imp_iff, implies_true, and_true]
  exact ⟨prime_2, prime_3, prime_1481071, prime_74436419, prime_5470365079085120887157193270902448565659295524958143968059153⟩

end Verif.Crypto
