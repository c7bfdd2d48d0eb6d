import Verif.Crypto.CurveLemmas
/-! # The affine formulas of the program, and conversions of points -/
namespace Verif.Crypto

section
attribute [local irreducible] add sub mul double square neg inverse sqrt

/-! ## Affine formulas -/

theorem slopeCoords_num {x1 y1 x2 l : Limbs} (h1 : Elem .felt x1) (hy : Elem .felt y1) (h2 : Elem .felt x2) (hl : Elem .felt l) :
    Elem .felt (slopeCoords x1 y1 x2 l).1 ∧ Elem .felt (slopeCoords x1 y1 x2 l).2 ∧
      num (slopeCoords x1 y1 x2 l).1 = num l ^ 2 - num x1 - num x2 ∧
      num (slopeCoords x1 y1 x2 l).2 = num l * (num x1 - (num l ^ 2 - num x1 - num x2)) - num y1 := by
  obtain ⟨a1, a2⟩ := num_mul hl hl
  obtain ⟨b1, b2⟩ := num_sub a1 h1
  obtain ⟨c1, c2⟩ := num_sub b1 h2
  obtain ⟨d1, d2⟩ := num_sub h1 c1
  obtain ⟨e1, e2⟩ := num_mul hl d1
  obtain ⟨f1, f2⟩ := num_sub e1 hy
  unfold slopeCoords
  refine ⟨c1, f1, ?_, ?_⟩
  · simp only [c2, b2, a2]; ring
  · simp only [f2, e2, d2, c2, b2, a2]; ring

theorem AffPoint.withCoords_repr {p : AffPoint} {P : StarkPoint} {c : Limbs × Limbs} (h1 : Elem .felt c.1) (h2 : Elem .felt c.2)
    (hi : p.infinity = false) (h : HasCoords P (num c.1) (num c.2)) : (p.withCoords c).Repr P := by
  unfold AffPoint.withCoords
  rw [hi]
  exact .mk ⟨h1, h2⟩ rfl h

theorem num_R : Elem .felt fieldMod.R ∧ num fieldMod.R = 1 := num_one

section
attribute [local irreducible] slopeCoords feltTwo feltThree

theorem AffPoint.double_repr {p : AffPoint} {P : StarkPoint} (h : p.Repr P) : ∃ q, p.double = some q ∧ q.Repr (P + P) := by
  unfold AffPoint.double
  cases hi : p.infinity
  case true =>
    rw [if_pos rfl, h.zero hi, add_zero]; exact ⟨p, rfl, h.zero hi ▸ h⟩
  case false =>
  rw [if_neg (by decide)]
  have hc := h.coords hi
  have y0 := hc.onCurve.y_ne
  have hv := h.1
  obtain ⟨a1, a2⟩ := num_mul num_feltTwo.1 hv.y
  obtain ⟨b1, b2⟩ := num_mul hv.x hv.x
  obtain ⟨c1, c2⟩ := num_mul num_feltThree.1 b1
  obtain ⟨d1, d2⟩ := num_add c1 num_R.1
  have h2 : num (mul fieldMod feltTwo p.y) ≠ 0 := by
    rw [a2, num_feltTwo.2]; exact mul_ne_zero two_ne_zero' y0
  obtain ⟨r, e0, e1, e2⟩ := invUnwrap_spec a1 h2
  obtain ⟨f1, f2⟩ := num_mul d1 e1
  rw [e0]
  refine ⟨_, rfl, ?_⟩
  obtain ⟨g0, g1, g2, g3⟩ := slopeCoords_num hv.x hv.y hv.x f1
  refine withCoords_repr g0 g1 hi ?_
  refine hc.double ?_ g2 (g3.trans ?_)
  · rw [f2, e2, d2, c2, b2, a2, num_feltTwo.2, num_feltThree.2, num_R.2]
    have := two_ne_zero'
    field_simp
  · rw [← g2]

theorem AffPoint.add_repr {p o : AffPoint} {P Q : StarkPoint} (h : p.Repr P) (h' : o.Repr Q) :
    ∃ q, p.add o = some q ∧ q.Repr (P + Q) := by
  unfold AffPoint.add
  cases ho : o.infinity
  case true => rw [if_pos rfl, h'.zero ho, add_zero]; exact ⟨p, rfl, h⟩
  case false =>
  rw [if_neg (by decide)]
  cases hi : p.infinity
  case true =>
    rw [if_pos rfl, h.zero hi, zero_add]
    exact ⟨_, rfl, .mk ⟨h'.1.x, h'.1.y⟩ rfl (h'.coords ho)⟩
  case false =>
  rw [if_neg (by decide)]
  have hc := h.coords hi
  have hc' := h'.coords ho
  have hv := h.1
  have hv' := h'.1
  by_cases hx : p.x = o.x
  · rw [if_pos hx]
    by_cases hy : p.y = o.y
    · rw [if_neg (by simpa using hy)]
      have : P = Q := hc.inj (by rw [hx, hy]; exact hc')
      rw [← this]; exact double_repr h
    · rw [if_pos hy]
      have hy' : num p.y ≠ num o.y := fun h0 => hy ((num_inj hv.y hv'.y).1 h0)
      rw [hx] at hc
      rw [hc.opposite hc' hy']
      exact ⟨_, rfl, .mk0 ⟨hv.x, hv.y⟩ rfl⟩
  · rw [if_neg hx]
    have hx' : num p.x ≠ num o.x := fun h0 => hx ((num_inj hv.x hv'.x).1 h0)
    obtain ⟨a1, a2⟩ := num_sub hv'.x hv.x
    obtain ⟨b1, b2⟩ := num_sub hv'.y hv.y
    have h2 : num (sub fieldMod o.x p.x) ≠ 0 := by rw [a2]; exact sub_ne_zero.2 (Ne.symm hx')
    obtain ⟨r, e0, e1, e2⟩ := invUnwrap_spec a1 h2
    obtain ⟨f1, f2⟩ := num_mul b1 e1
    rw [e0]
    refine ⟨_, rfl, ?_⟩
    obtain ⟨g0, g1, g2, g3⟩ := slopeCoords_num hv.x hv.y hv'.x f1
    refine withCoords_repr g0 g1 hi ?_
    refine hc.add_ne hc' hx' ?_ g2 (g3.trans ?_)
    · rw [f2, e2, b2]
      rw [a2] at h2
      rw [a2]
      refine mul_right_cancel₀ h2 ?_
      rw [mul_right_comm, mul_assoc _ _⁻¹, inv_mul_cancel₀ h2]; ring
    · rw [← g2]

end

theorem AffPoint.negate_repr {p : AffPoint} {P : StarkPoint} (h : p.Repr P) : p.negate.Repr (-P) := by
  obtain ⟨a1, a2⟩ := num_neg h.1.y
  have hv : p.negate.Valid := ⟨h.1.x, a1⟩
  cases hi : p.infinity
  case true => rw [h.zero hi, neg_zero]; exact .mk0 hv hi
  case false =>
    refine .mk hv hi ?_
    have := (h.coords hi).neg
    unfold AffPoint.negate
    simp only [a2]
    exact this

theorem AffPoint.identity_repr : AffPoint.identity.Repr 0 := .mk0 ⟨num_zero.1, num_zero.1⟩ rfl

theorem AffPoint.multiply_repr {p : AffPoint} {P : StarkPoint} (h : p.Repr P) (bits : List Bool) :
    ∃ q, p.multiply bits = some q ∧ q.Repr (leValue bits • P) := by
  unfold AffPoint.multiply
  rw [List.foldl_reverse]
  induction bits with
  | nil => rw [leValue, zero_nsmul]; exact ⟨_, rfl, identity_repr⟩
  | cons b l ih =>
    obtain ⟨q, e, r⟩ := ih
    rw [List.foldr_cons, leValue, e]
    obtain ⟨q1, e1, r1⟩ := double_repr r
    unfold AffPoint.mulStep
    rw [Option.bind_some, e1, Option.bind_some]
    cases b
    · rw [if_neg (by decide), Bool.toNat_false, Nat.zero_add]
      refine ⟨q1, rfl, ?_⟩
      rwa [mul_nsmul', two_nsmul]
    · obtain ⟨q2, e2, r2⟩ := add_repr r1 h
      rw [if_pos rfl, Bool.toNat_true]
      refine ⟨q2, e2, ?_⟩
      rwa [add_nsmul, one_nsmul, mul_nsmul', two_nsmul, add_comm]

/-! ## Conversions -/

theorem ProjPoint.ofAffine_repr {p : AffPoint} {P : StarkPoint} (h : p.Repr P) (hi : p.infinity = false) :
    (ProjPoint.ofAffine p).Repr P := by
  have h1 : num fieldMod.R = 1 := num_one.2
  refine .mk ⟨h.1.x, h.1.y, num_one.1, ?_⟩ rfl ?_
  · show num fieldMod.R ≠ 0
    rw [h1]; exact one_ne_zero
  · show HasCoords P (num p.x / num fieldMod.R) (num p.y / num fieldMod.R)
    rw [h1, div_one, div_one]; exact h.coords hi

/-- The conversion gives the quotients of the coordinates, whatever the flag says. -/
theorem AffPoint.ofProj_num {p : ProjPoint} (h : p.Valid) : ∃ q, AffPoint.ofProj p = some q ∧ q.Valid ∧ q.infinity = false ∧
    num q.x = num p.x / num p.z ∧ num q.y = num p.y / num p.z := by
  obtain ⟨r, e0, e1, e2⟩ := invUnwrap_spec h.z h.z0
  obtain ⟨a1, a2⟩ := num_mul h.x e1
  obtain ⟨b1, b2⟩ := num_mul h.y e1
  unfold AffPoint.ofProj
  rw [e0]
  refine ⟨_, rfl, ⟨a1, b1⟩, rfl, ?_, ?_⟩
  · rw [div_eq_mul_inv, ← e2]; exact a2
  · rw [div_eq_mul_inv, ← e2]; exact b2

theorem AffPoint.ofProj_repr {p : ProjPoint} {P : StarkPoint} (h : p.Repr P) (hi : p.infinity = false) :
    ∃ q, AffPoint.ofProj p = some q ∧ q.Repr P ∧ q.infinity = false := by
  obtain ⟨q, e, v, i, hx, hy⟩ := ofProj_num h.1
  refine ⟨q, e, .mk v i ?_, i⟩
  rw [hx, hy]; exact h.coords hi

theorem rhs_num {x : Limbs} (h : Elem .felt x) : Elem .felt (add fieldMod (add fieldMod (mul fieldMod (square fieldMod x) x)
    (mul fieldMod curveA x)) curveB) ∧ num (add fieldMod (add fieldMod (mul fieldMod (square fieldMod x) x)
    (mul fieldMod curveA x)) curveB) = num x ^ 3 + num x + starkB := by
  obtain ⟨a1, a2⟩ := num_square h
  obtain ⟨b1, b2⟩ := num_mul a1 h
  obtain ⟨c1, c2⟩ := num_mul num_curveA.1 h
  obtain ⟨d1, d2⟩ := num_add b1 c1
  obtain ⟨e1, e2⟩ := num_add d1 num_curveB.1
  refine ⟨e1, ?_⟩
  rw [e2, d2, c2, b2, a2, num_curveA.2, num_curveB.2]; ring

/-- `from_x`: a point with this first coordinate if there is one. -/
theorem AffPoint.fromX_spec {x : Limbs} (h : Elem .felt x) :
    (∃ p P, AffPoint.fromX x = some (some p) ∧ p.Repr P ∧ p.x = x ∧ p.infinity = false) ∨
    AffPoint.fromX x = some none ∧ ∀ y, ¬ OnCurve (num x) y := by
  obtain ⟨e1, e2⟩ := rhs_num h
  have hs := C31_sqrt e1
  unfold AffPoint.fromX
  rcases hs with ⟨r, h1, h2, h3⟩ | ⟨h1, h2⟩
  · left
    rw [h1]
    have hc : OnCurve (num x) (num r) := by
      unfold OnCurve
      rw [← e2]
      unfold num
      rw [← h3, ZMod.natCast_mod, Nat.cast_mul]; ring
    obtain ⟨P, hP⟩ := hc.point
    exact ⟨⟨x, r, false⟩, P, rfl, .mk ⟨h, h2⟩ rfl hP, rfl, rfl⟩
  · right
    rw [h1]
    refine ⟨rfl, fun y hy => h2 y.val ?_⟩
    unfold OnCurve at hy
    rw [← e2] at hy
    generalize Verif.Crypto.add fieldMod (Verif.Crypto.add fieldMod (mul fieldMod (square fieldMod x) x)
        (mul fieldMod curveA x)) curveB = a at *
    have h4 : ((y.val * y.val : Nat) : Spec.F) = ((value .felt a : Nat) : Spec.F) := by
      rw [Nat.cast_mul, ZMod.natCast_zmod_val, ← pow_two]; exact hy
    have h5 := (ZMod.natCast_eq_natCast_iff' _ _ _).1 h4
    rwa [Nat.mod_eq_of_lt (C29_value_lt e1)] at h5

/-! ## Bits -/

theorem leValue_lt (l : List Bool) : leValue l < 2 ^ l.length := by
  induction l with
  | nil => simp [leValue]
  | cons b l ih =>
    rw [leValue, List.length_cons, pow_succ]
    have := Bool.toNat_lt b
    omega

/-- The bits of a number, the least significant first. -/
theorem leValue_testBit (n : Nat) : ∀ k, leValue ((List.range k).map n.testBit) = n % 2 ^ k := by
  intro k
  induction k with
  | zero => simp [leValue, Nat.mod_one]
  | succ k ih =>
    rw [List.range_succ, List.map_append, List.map_singleton, leValue_append, ih, List.length_map, List.length_range,
      Nat.mod_pow_succ, Nat.toNat_testBit]

theorem limb_testBit {x : Limbs} (h : x.Ok) {i : Nat} (hi : i < 256) : (limb x (i / 64)).testBit (i % 64) = x.nat.testBit i := by
  have e : x.nat.testBit i = ((x.nat / 2 ^ (64 * (i / 64))) % 2 ^ 64).testBit (i % 64) := by
    rw [Nat.testBit_mod_two_pow, Nat.testBit_div_two_pow]
    have : i % 64 < 64 := Nat.mod_lt _ (by decide)
    rw [decide_eq_true this, Bool.true_and]
    congr 1; omega
  rw [e]
  congr 1
  have l0 := h.l0
  have l1 := h.l1
  have l2 := h.l2
  have l3 := h.l3
  have hq : i / 64 < 4 := by omega
  have hn : x.nat = x.l0 + 18446744073709551616 * x.l1 + 340282366920938463463374607431768211456 * x.l2 +
      6277101735386680763835789423207666416102355444464034512896 * x.l3 := rfl
  change x.l0 < 18446744073709551616 at l0
  change x.l1 < 18446744073709551616 at l1
  change x.l2 < 18446744073709551616 at l2
  change x.l3 < 18446744073709551616 at l3
  generalize x.nat = n at hn
  generalize i / 64 = q at hq
  match q, hq with
  | 0, _ => show x.l0 = n / 1 % 18446744073709551616; omega
  | 1, _ => show x.l1 = n / 18446744073709551616 % 18446744073709551616; omega
  | 2, _ => show x.l2 = n / 340282366920938463463374607431768211456 % 18446744073709551616; omega
  | 3, _ => show x.l3 = n / 6277101735386680763835789423207666416102355444464034512896 % 18446744073709551616; omega

theorem leBits_value {k : Kind} {x : Limbs} (h : Elem k x) : leValue (leBits k.modulus x) = value k x := by
  have hc := (toNative_spec (modulus_good k) h.u64).1
  have : leBits k.modulus x = (List.range 256).map (toNative k.modulus x).nat.testBit := by
    unfold leBits
    exact List.map_congr_left fun i hi => limb_testBit hc.ok (List.mem_range.1 hi)
  rw [this, leValue_testBit, Nat.mod_eq_of_lt]
  · rfl
  · exact lt_trans hc.lt (by rw [prime_eq]; cases k <;> decide)

end

end Verif.Crypto
