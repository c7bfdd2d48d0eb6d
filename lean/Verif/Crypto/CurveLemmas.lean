import Verif.Crypto.Torsion
import Mathlib.Tactic.FieldSimp
/-! # The group law in coordinates, and the formulas of the program -/
namespace Verif.Crypto

theorem two_ne_zero' : (2 : Spec.F) ≠ 0 := by
  intro h
  have h' : ((2 : Nat) : Spec.F) = 0 := by rw [Nat.cast_ofNat]; exact h
  have hd := (ZMod.natCast_eq_zero_iff _ _).1 h'
  rw [pN_eq] at hd
  exact absurd (Nat.le_of_dvd (by decide) hd) (by decide)

theorem equation_stark {x y : Spec.F} : stark.Equation x y ↔ OnCurve x y := by
  rw [WeierstrassCurve.Affine.equation_iff]
  unfold OnCurve stark
  simp only [zero_mul, add_zero, one_mul]

theorem OnCurve.y_ne {x y : Spec.F} (h : OnCurve x y) : y ≠ 0 := by
  rintro rfl
  refine no_root x ?_
  unfold OnCurve at h
  rw [← h]; ring

theorem negY_stark (x y : Spec.F) : stark.negY x y = -y := by
  unfold WeierstrassCurve.Affine.negY stark; ring

theorem y_ne_neg {x y : Spec.F} (h : OnCurve x y) : y ≠ -y := by
  intro he
  have : 2 * y = 0 := by linear_combination he
  rcases mul_eq_zero.1 this with h1 | h1
  · exact two_ne_zero' h1
  · exact h.y_ne h1

theorem nonsingular_stark {x y : Spec.F} : stark.Nonsingular x y ↔ OnCurve x y := by
  rw [WeierstrassCurve.Affine.nonsingular_iff, equation_stark]
  refine ⟨fun h => h.1, fun h => ⟨h, .inr ?_⟩⟩
  have := y_ne_neg h
  unfold stark
  simpa using this

theorem HasCoords.onCurve {P : StarkPoint} {x y : Spec.F} (h : HasCoords P x y) : OnCurve x y := by
  obtain ⟨h, _⟩ := h
  exact nonsingular_stark.1 h

theorem OnCurve.point {x y : Spec.F} (h : OnCurve x y) : ∃ P, HasCoords P x y := ⟨_, nonsingular_stark.2 h, rfl⟩

theorem HasCoords.ne_zero {P : StarkPoint} {x y : Spec.F} (h : HasCoords P x y) : P ≠ 0 := by
  obtain ⟨h, rfl⟩ := h
  exact WeierstrassCurve.Affine.Point.some_ne_zero h

theorem HasCoords.inj {P Q : StarkPoint} {x y : Spec.F} (h : HasCoords P x y) (h' : HasCoords Q x y) : P = Q := by
  obtain ⟨h, rfl⟩ := h
  obtain ⟨h', rfl⟩ := h'
  rfl

theorem HasCoords.unique {P : StarkPoint} {x y x' y' : Spec.F} (h : HasCoords P x y) (h' : HasCoords P x' y') :
    x = x' ∧ y = y' := by
  obtain ⟨h, rfl⟩ := h
  obtain ⟨h', e⟩ := h'
  simpa using e

theorem eq_zero_or_coords (P : StarkPoint) : P = 0 ∨ ∃ x y, HasCoords P x y := by
  cases P with
  | zero => exact .inl rfl
  | some x y h => exact .inr ⟨x, y, h, rfl⟩

theorem HasCoords.neg {P : StarkPoint} {x y : Spec.F} (h : HasCoords P x y) : HasCoords (-P) x (-y) := by
  obtain ⟨h, rfl⟩ := h
  rw [WeierstrassCurve.Affine.Point.neg_some]
  have := (WeierstrassCurve.Affine.nonsingular_neg (W' := stark) x y).2 h
  rw [negY_stark] at this
  refine ⟨this, ?_⟩
  congr 1; exact negY_stark x y

/-- Two points with the same first coordinate are equal or opposite. -/
theorem HasCoords.same_x {P Q : StarkPoint} {x y y' : Spec.F} (h : HasCoords P x y) (h' : HasCoords Q x y') :
    P = Q ∨ P = -Q := by
  have e1 := h.onCurve
  have e2 := h'.onCurve
  unfold OnCurve at e1 e2
  have : (y - y') * (y + y') = 0 := by linear_combination e1 - e2
  rcases mul_eq_zero.1 this with h1 | h1
  · left
    have : y = y' := by linear_combination h1
    exact h.inj (this ▸ h')
  · right
    have : y = -y' := by linear_combination h1
    exact h.inj (this ▸ h'.neg)

theorem HasCoords.opposite {P Q : StarkPoint} {x y y' : Spec.F} (h : HasCoords P x y) (h' : HasCoords Q x y') (hne : y ≠ y') :
    P + Q = 0 := by
  rcases h.same_x h' with rfl | rfl
  · exact absurd (h.unique h').2 hne
  · exact neg_add_cancel _

theorem HasCoords.add_ne {P Q : StarkPoint} {x1 y1 x2 y2 : Spec.F} (h : HasCoords P x1 y1) (h' : HasCoords Q x2 y2)
    (hx : x1 ≠ x2) {l x3 y3 : Spec.F} (hl : l * (x1 - x2) = y1 - y2) (h3 : x3 = l ^ 2 - x1 - x2) (hy : y3 = l * (x1 - x3) - y1) :
    HasCoords (P + Q) x3 y3 := by
  obtain ⟨h, rfl⟩ := h
  obtain ⟨h', rfl⟩ := h'
  rw [WeierstrassCurve.Affine.Point.add_of_X_ne hx]
  have hs : stark.slope x1 x2 y1 y2 = l := by
    rw [WeierstrassCurve.Affine.slope_of_X_ne hx, div_eq_iff (sub_ne_zero.2 hx), hl]
  have ex : stark.addX x1 x2 (stark.slope x1 x2 y1 y2) = x3 := by
    rw [hs, h3]; unfold WeierstrassCurve.Affine.addX stark; ring
  have ey : stark.addY x1 x2 y1 (stark.slope x1 x2 y1 y2) = y3 := by
    unfold WeierstrassCurve.Affine.addY WeierstrassCurve.Affine.negAddY
    rw [negY_stark, ex, hs, hy]; ring
  have hn := WeierstrassCurve.Affine.nonsingular_add h h' (fun hh => hx hh.1)
  rw [ex, ey] at hn
  refine ⟨hn, ?_⟩
  congr 1

theorem HasCoords.double {P : StarkPoint} {x y : Spec.F} (h : HasCoords P x y)
    {l x3 y3 : Spec.F} (hl : l * (2 * y) = 3 * x ^ 2 + 1) (h3 : x3 = l ^ 2 - x - x) (hy : y3 = l * (x - x3) - y) :
    HasCoords (P + P) x3 y3 := by
  have hc := h.onCurve
  obtain ⟨h, rfl⟩ := h
  have hne : y ≠ stark.negY x y := by rw [negY_stark]; exact y_ne_neg hc
  rw [WeierstrassCurve.Affine.Point.add_self_of_Y_ne hne]
  have hs : stark.slope x x y y = l := by
    rw [WeierstrassCurve.Affine.slope_of_Y_ne rfl hne, negY_stark, div_eq_iff]
    · unfold stark; linear_combination -hl
    · rw [sub_neg_eq_add]; rw [← two_mul]; exact mul_ne_zero two_ne_zero' hc.y_ne
  have ex : stark.addX x x (stark.slope x x y y) = x3 := by
    rw [hs, h3]; unfold WeierstrassCurve.Affine.addX stark; ring
  have ey : stark.addY x x y (stark.slope x x y y) = y3 := by
    unfold WeierstrassCurve.Affine.addY WeierstrassCurve.Affine.negAddY
    rw [negY_stark, ex, hs, hy]; ring
  have hn := WeierstrassCurve.Affine.nonsingular_add h h (fun hh => hne hh.2)
  rw [ex, ey] at hn
  refine ⟨hn, ?_⟩
  congr 1

/-! ## Elements of the program -/

theorem num_neg {a : Limbs} (ha : Elem .felt a) : Elem .felt (neg fieldMod a) ∧ num (neg fieldMod a) = -num a := by
  obtain ⟨h1, h2⟩ := C29_neg ha
  refine ⟨h1, (num_cast _ h2).trans ?_⟩
  rw [Nat.cast_sub (C29_value_lt ha).le, ZMod.natCast_self, zero_sub]; rfl

theorem num_eq_zero {a : Limbs} : num a = 0 ↔ value .felt a % Kind.felt.prime = 0 := by
  unfold num
  rw [ZMod.natCast_eq_zero_iff, Nat.dvd_iff_mod_eq_zero]

theorem num_eq_zero' {a : Limbs} (ha : Elem .felt a) : num a = 0 ↔ value .felt a = 0 := by
  rw [num_eq_zero, Nat.mod_eq_of_lt (C29_value_lt ha)]

theorem invUnwrap_spec {a : Limbs} (ha : Elem .felt a) (h : num a ≠ 0) :
    ∃ r, invUnwrap a = some r ∧ Elem .felt r ∧ num r = (num a)⁻¹ := by
  obtain ⟨r, h1, h2, h3, -⟩ := C30_inverse ha (fun h0 => h ((num_eq_zero' ha).2 h0))
  refine ⟨r, ?_, h2, ?_⟩
  · unfold invUnwrap; exact congrArg Option.join h1
  · refine eq_inv_of_mul_eq_one_right ?_
    have h4 := congrArg (Nat.cast : Nat → Spec.F) h3
    rw [ZMod.natCast_mod, Nat.cast_mul] at h4
    simpa [num] using h4

theorem invUnwrap_zero {a : Limbs} (ha : Elem .felt a) (h : num a = 0) : invUnwrap a = none := by
  have := C30_zero ha ((num_eq_zero' ha).1 h)
  unfold invUnwrap; exact congrArg Option.join this

theorem fromNative_num {x : Limbs} (h : x.Ok) : Elem .felt (fromNative fieldMod x) ∧ num (fromNative fieldMod x) = (x.nat : Spec.F) := by
  obtain ⟨h1, h2⟩ := C29_from_bytes (k := .felt) h
  exact ⟨h1, num_cast _ h2⟩

theorem num_curveA : Elem .felt curveA ∧ num curveA = 1 := num_one

theorem num_curveB : Elem .felt curveB ∧ num curveB = starkB := by
  obtain ⟨h1, h2⟩ := fromNative_num (x := ⟨0xf4cdfcb99cee9e89, 0x609ad26c15c915c1, 0x150e596d72f7a8c5, 0x6f21413efbe40de⟩)
    ⟨by decide, by decide, by decide, by decide⟩
  refine ⟨h1, h2.trans ?_⟩
  rw [← castB]; exact congrArg _ (by decide +kernel)

theorem num_feltTwo : Elem .felt feltTwo ∧ num feltTwo = 2 := num_two

theorem num_feltThree : Elem .felt feltThree ∧ num feltThree = 3 := by
  obtain ⟨h1, h2⟩ := num_add num_feltTwo.1 num_one.1
  refine ⟨h1, h2.trans ?_⟩
  rw [num_feltTwo.2, num_one.2]; norm_num

/-- The coordinates of the generator. -/
def gX : Nat := 0x1ef15c18599971b7beced415a40f0c7deacfd9b0d1819e03d723d8bc943cfca
def gY : Nat := 0x5668060aa49730b7be4801df46ec62de53ecd11abe43a32873000c36e8dc1f

theorem num_gx : Elem .felt curveG.x ∧ num curveG.x = (gX : Spec.F) := by
  obtain ⟨h1, h2⟩ := fromNative_num (x := ⟨0x3d723d8bc943cfca, 0xdeacfd9b0d1819e0, 0x7beced415a40f0c7, 0x1ef15c18599971b⟩)
    ⟨by decide, by decide, by decide, by decide⟩
  refine ⟨h1, h2.trans ?_⟩
  exact congrArg _ (by decide +kernel)

theorem num_gy : Elem .felt curveG.y ∧ num curveG.y = (gY : Spec.F) := by
  obtain ⟨h1, h2⟩ := fromNative_num (x := ⟨0x2873000c36e8dc1f, 0xde53ecd11abe43a3, 0xb7be4801df46ec62, 0x5668060aa49730⟩)
    ⟨by decide, by decide, by decide, by decide⟩
  refine ⟨h1, h2.trans ?_⟩
  exact congrArg _ (by decide +kernel)

theorem onCurve_nat {x y : Nat} (h : (y * y) % pN = (x * x * x + x + bN) % pN) : OnCurve (x : Spec.F) (y : Spec.F) := by
  have := congrArg (Nat.cast : Nat → Spec.F) h
  rw [castMod, castMod] at this
  unfold OnCurve
  simp only [Nat.cast_add, Nat.cast_mul, castB] at this
  linear_combination this

theorem onCurve_g : OnCurve (gX : Spec.F) (gY : Spec.F) := onCurve_nat (by decide +kernel)

/-! ## Projective formulas -/

section
attribute [local irreducible] add sub mul double square neg inverse sqrt

theorem ProjPoint.Repr.coords {p : ProjPoint} {P : StarkPoint} (h : p.Repr P) (hi : p.infinity = false) :
    HasCoords P (num p.x / num p.z) (num p.y / num p.z) := by
  have := h.2
  rwa [hi, if_neg (by decide)] at this

theorem ProjPoint.Repr.zero {p : ProjPoint} {P : StarkPoint} (h : p.Repr P) (hi : p.infinity = true) : P = 0 := by
  have := h.2
  rwa [hi, if_pos rfl] at this

theorem ProjPoint.Repr.mk {p : ProjPoint} {P : StarkPoint} (hv : p.Valid) (hi : p.infinity = false)
    (h : HasCoords P (num p.x / num p.z) (num p.y / num p.z)) : p.Repr P := by
  refine ⟨hv, ?_⟩
  rwa [hi, if_neg (by decide)]

theorem ProjPoint.Repr.mk0 {p : ProjPoint} (hv : p.Valid) (hi : p.infinity = true) : p.Repr 0 := by
  refine ⟨hv, ?_⟩
  rw [hi, if_pos rfl]

theorem ProjPoint.double_repr {p : ProjPoint} {P : StarkPoint} (h : p.Repr P) : p.double.Repr (P + P) := by
  unfold ProjPoint.double
  cases hi : p.infinity
  case true =>
    rw [if_pos rfl, h.zero hi, add_zero]; exact h.zero hi ▸ h
  case false =>
  rw [if_neg (by decide)]
  have hc := h.coords hi
  have y0 := hc.onCurve.y_ne
  obtain ⟨⟨hx, hy, hz, z0⟩, -⟩ := h
  obtain ⟨a1, a2⟩ := num_square hx
  obtain ⟨b1, b2⟩ := num_double a1
  obtain ⟨c1, c2⟩ := num_add a1 b1
  obtain ⟨d1, d2⟩ := num_square hz
  obtain ⟨t1, t2⟩ := num_add c1 d1
  obtain ⟨e1, e2⟩ := num_mul hy hz
  obtain ⟨u1, u2⟩ := num_double e1
  obtain ⟨f1, f2⟩ := num_mul u1 hx
  obtain ⟨g1, g2⟩ := num_mul f1 hy
  obtain ⟨v1, v2⟩ := num_double g1
  obtain ⟨i1, i2⟩ := num_square t1
  obtain ⟨j1, j2⟩ := num_double v1
  obtain ⟨w1, w2⟩ := num_sub i1 j1
  obtain ⟨k1, k2⟩ := num_mul u1 hy
  obtain ⟨x1, x2⟩ := num_mul u1 w1
  obtain ⟨l1, l2⟩ := num_sub v1 w1
  obtain ⟨m1, m2⟩ := num_mul t1 l1
  obtain ⟨n1, n2⟩ := num_mul k1 k1
  obtain ⟨o1, o2⟩ := num_double n1
  obtain ⟨y1, y2⟩ := num_sub m1 o1
  obtain ⟨q1, q2⟩ := num_mul u1 u1
  obtain ⟨z1, z2⟩ := num_mul q1 u1
  have two := two_ne_zero'
  have y0' : num p.y ≠ 0 := fun h0 => y0 (by rw [h0, zero_div])
  refine .mk ⟨x1, y1, z1, ?_⟩ rfl ?_
  · simp only [z2, q2, u2, e2]
    exact mul_ne_zero (mul_ne_zero (mul_ne_zero two (mul_ne_zero y0' z0)) (mul_ne_zero two (mul_ne_zero y0' z0)))
      (mul_ne_zero two (mul_ne_zero y0' z0))
  · refine hc.double (l := (3 * num p.x ^ 2 + num p.z ^ 2) / (2 * num p.y * num p.z)) ?_ ?_ ?_
    · field_simp
    · simp only [x2, z2, q2, w2, i2, j2, v2, g2, f2, t2, c2, b2, a2, d2, u2, e2]
      field_simp
      ring
    · simp only [x2, y2, z2, q2, w2, i2, j2, v2, g2, f2, t2, c2, b2, a2, d2, u2, e2, m2, l2, o2, n2, k2]
      field_simp
      ring

/-- The addition formulas in a field; `p` has the coordinates `(X : Y : Z)` and `o` has `(A : B : C)`. -/
theorem add_formula {X Y Z A B C : Spec.F} (hZ : Z ≠ 0) (hC : C ≠ 0) (hne : X / Z ≠ A / C) :
    ∃ l, l * (X / Z - A / C) = Y / Z - B / C ∧
      (X * C - A * Z) * ((Y * C - B * Z) * (Y * C - B * Z) * (Z * C) -
        (X * C - A * Z) * (X * C - A * Z) * (X * C + A * Z)) /
        ((X * C - A * Z) * ((X * C - A * Z) * (X * C - A * Z)) * (Z * C)) = l ^ 2 - X / Z - A / C ∧
      ((Y * C - B * Z) * (X * C * ((X * C - A * Z) * (X * C - A * Z)) - ((Y * C - B * Z) * (Y * C - B * Z) * (Z * C) -
        (X * C - A * Z) * (X * C - A * Z) * (X * C + A * Z))) - Y * C * ((X * C - A * Z) * ((X * C - A * Z) * (X * C - A * Z)))) /
        ((X * C - A * Z) * ((X * C - A * Z) * (X * C - A * Z)) * (Z * C)) =
        l * (X / Z - (l ^ 2 - X / Z - A / C)) - Y / Z := by
  obtain ⟨x, rfl⟩ : ∃ x, X = x * Z := ⟨X / Z, by field_simp⟩
  obtain ⟨y, rfl⟩ : ∃ y, Y = y * Z := ⟨Y / Z, by field_simp⟩
  obtain ⟨a, rfl⟩ : ∃ a, A = a * C := ⟨A / C, by field_simp⟩
  obtain ⟨b, rfl⟩ : ∃ b, B = b * C := ⟨B / C, by field_simp⟩
  rw [mul_div_cancel_right₀ _ hZ, mul_div_cancel_right₀ _ hC] at hne
  obtain ⟨d, rfl⟩ : ∃ d, x = a + d := ⟨x - a, by ring⟩
  have hd : d ≠ 0 := by rintro rfl; exact hne (add_zero a)
  rw [mul_div_cancel_right₀ _ hZ, mul_div_cancel_right₀ _ hC, mul_div_cancel_right₀ _ hZ, mul_div_cancel_right₀ _ hC]
  have e1 : (a + d) * Z * C - a * C * Z = d * (Z * C) := by ring
  have e2 : y * Z * C - b * C * Z = (y - b) * (Z * C) := by ring
  rw [e1, e2]
  refine ⟨(y - b) / d, by field_simp; ring, ?_, ?_⟩ <;> field_simp <;> ring

theorem ProjPoint.add_repr {p o : ProjPoint} {P Q : StarkPoint} (h : p.Repr P) (h' : o.Repr Q) : (p.add o).Repr (P + Q) := by
  unfold ProjPoint.add
  cases ho : o.infinity
  case true =>
    rw [if_pos rfl, h'.zero ho, add_zero]; exact h
  case false =>
  rw [if_neg (by decide)]
  cases hi : p.infinity
  case true =>
    rw [if_pos rfl, h.zero hi, zero_add]
    exact .mk ⟨h'.1.x, h'.1.y, h'.1.z, h'.1.z0⟩ rfl (h'.coords ho)
  case false =>
  rw [if_neg (by decide)]
  have hc := h.coords hi
  have hc' := h'.coords ho
  have hr := h
  obtain ⟨⟨hx, hy, hz, z0⟩, -⟩ := h
  obtain ⟨⟨hx', hy', hz', z0'⟩, -⟩ := h'
  obtain ⟨a1, a2⟩ := num_mul hx hz'
  obtain ⟨b1, b2⟩ := num_mul hx' hz
  obtain ⟨c1, c2⟩ := num_mul hy hz'
  obtain ⟨d1, d2⟩ := num_mul hy' hz
  have hxx : (mul fieldMod p.x o.z = mul fieldMod o.x p.z) ↔ num p.x / num p.z = num o.x / num o.z := by
    rw [← num_inj a1 b1, a2, b2, div_eq_div_iff z0 z0']
  have hyy : (mul fieldMod p.y o.z = mul fieldMod o.y p.z) ↔ num p.y / num p.z = num o.y / num o.z := by
    rw [← num_inj c1 d1, c2, d2, div_eq_div_iff z0 z0']
  simp only
  by_cases hu : mul fieldMod p.x o.z = mul fieldMod o.x p.z
  · rw [if_pos hu]
    rw [hxx] at hu
    by_cases ht : mul fieldMod p.y o.z = mul fieldMod o.y p.z
    · rw [if_neg (by simpa using ht)]
      rw [hyy] at ht
      have : P = Q := hc.inj (by rw [hu, ht]; exact hc')
      rw [← this]; exact double_repr hr
    · rw [if_pos ht]
      rw [hyy] at ht
      have hc2 : HasCoords P (num o.x / num o.z) (num p.y / num p.z) := by rw [← hu]; exact hc
      rw [hc2.opposite hc' ht]
      exact .mk0 ⟨hx, hy, hz, z0⟩ rfl
  · rw [if_neg hu]
    rw [hxx] at hu
    obtain ⟨t1, t2⟩ := num_sub c1 d1
    obtain ⟨u1, u2⟩ := num_sub a1 b1
    obtain ⟨e1, e2⟩ := num_square u1
    obtain ⟨v1, v2⟩ := num_mul hz hz'
    obtain ⟨f1, f2⟩ := num_square t1
    obtain ⟨g1, g2⟩ := num_mul f1 v1
    obtain ⟨i1, i2⟩ := num_add a1 b1
    obtain ⟨j1, j2⟩ := num_mul e1 i1
    obtain ⟨w1, w2⟩ := num_sub g1 j1
    obtain ⟨k1, k2⟩ := num_mul u1 e1
    obtain ⟨x1, x2⟩ := num_mul u1 w1
    obtain ⟨l1, l2⟩ := num_mul a1 e1
    obtain ⟨m1, m2⟩ := num_sub l1 w1
    obtain ⟨n1, n2⟩ := num_mul t1 m1
    obtain ⟨o1, o2⟩ := num_mul c1 k1
    obtain ⟨y1, y2⟩ := num_sub n1 o1
    obtain ⟨z1, z2⟩ := num_mul k1 v1
    have hu' : num p.x * num o.z - num o.x * num p.z ≠ 0 := by
      rw [sub_ne_zero]; intro h0; exact hu ((div_eq_div_iff z0 z0').2 h0)
    refine .mk ⟨x1, y1, z1, ?_⟩ rfl ?_
    · simp only [z2, k2, e2, u2, a2, b2, v2]
      exact mul_ne_zero (mul_ne_zero hu' (mul_ne_zero hu' hu')) (mul_ne_zero z0 z0')
    · obtain ⟨l, q1, q2, q3⟩ := add_formula (Y := num p.y) (B := num o.y) z0 z0' hu
      have key := hc.add_ne hc' hu q1 rfl rfl
      rw [← q3, ← q2] at key
      simp only [x2, y2, z2, w2, g2, f2, t2, u2, a2, b2, c2, d2, e2, v2, j2, i2, k2, n2, m2, l2, o2]
      exact key

theorem AffPoint.Repr.coords {p : AffPoint} {P : StarkPoint} (h : p.Repr P) (hi : p.infinity = false) :
    HasCoords P (num p.x) (num p.y) := by
  have := h.2
  rwa [hi, if_neg (by decide)] at this

theorem AffPoint.Repr.zero {p : AffPoint} {P : StarkPoint} (h : p.Repr P) (hi : p.infinity = true) : P = 0 := by
  have := h.2
  rwa [hi, if_pos rfl] at this

theorem AffPoint.Repr.mk {p : AffPoint} {P : StarkPoint} (hv : p.Valid) (hi : p.infinity = false)
    (h : HasCoords P (num p.x) (num p.y)) : p.Repr P := by
  refine ⟨hv, ?_⟩
  rwa [hi, if_neg (by decide)]

theorem AffPoint.Repr.mk0 {p : AffPoint} (hv : p.Valid) (hi : p.infinity = true) : p.Repr 0 := by
  refine ⟨hv, ?_⟩
  rw [hi, if_pos rfl]

theorem ProjPoint.addAffine_repr {p : ProjPoint} {o : AffPoint} {P Q : StarkPoint} (h : p.Repr P) (h' : o.Repr Q) :
    (p.addAffine o).Repr (P + Q) := by
  unfold ProjPoint.addAffine
  cases ho : o.infinity
  case true =>
    rw [if_pos rfl, h'.zero ho, add_zero]; exact h
  case false =>
  rw [if_neg (by decide)]
  have one := num_one
  cases hi : p.infinity
  case true =>
    rw [if_pos rfl, h.zero hi, zero_add]
    have h1 : num fieldMod.R = 1 := one.2
    refine .mk ⟨h'.1.x, h'.1.y, one.1, ?_⟩ rfl ?_
    · simp only [h1]; exact one_ne_zero
    · simp only [h1, div_one]; exact h'.coords ho
  case false =>
  rw [if_neg (by decide)]
  have hc := h.coords hi
  have hc' := h'.coords ho
  have hr := h
  obtain ⟨⟨hx, hy, hz, z0⟩, -⟩ := h
  obtain ⟨⟨hx', hy'⟩, -⟩ := h'
  obtain ⟨b1, b2⟩ := num_mul hx' hz
  obtain ⟨d1, d2⟩ := num_mul hy' hz
  have hxx : (p.x = mul fieldMod o.x p.z) ↔ num p.x / num p.z = num o.x := by
    rw [← num_inj hx b1, b2, div_eq_iff z0]
  have hyy : (p.y = mul fieldMod o.y p.z) ↔ num p.y / num p.z = num o.y := by
    rw [← num_inj hy d1, d2, div_eq_iff z0]
  simp only
  by_cases hu : p.x = mul fieldMod o.x p.z
  · rw [if_pos hu]
    rw [hxx] at hu
    by_cases ht : p.y = mul fieldMod o.y p.z
    · rw [if_neg (by simpa using ht)]
      rw [hyy] at ht
      have : P = Q := hc.inj (by rw [hu, ht]; exact hc')
      rw [← this]; exact double_repr hr
    · rw [if_pos ht]
      rw [hyy] at ht
      have hc2 : HasCoords P (num o.x) (num p.y / num p.z) := by rw [← hu]; exact hc
      rw [hc2.opposite hc' ht]
      exact .mk0 ⟨hx, hy, hz, z0⟩ rfl
  · rw [if_neg hu]
    rw [hxx] at hu
    obtain ⟨t1, t2⟩ := num_sub hy d1
    obtain ⟨u1, u2⟩ := num_sub hx b1
    obtain ⟨e1, e2⟩ := num_mul u1 u1
    obtain ⟨f1, f2⟩ := num_mul t1 t1
    obtain ⟨g1, g2⟩ := num_mul f1 hz
    obtain ⟨i1, i2⟩ := num_add hx b1
    obtain ⟨j1, j2⟩ := num_mul e1 i1
    obtain ⟨w1, w2⟩ := num_sub g1 j1
    obtain ⟨k1, k2⟩ := num_mul u1 e1
    obtain ⟨x1, x2⟩ := num_mul u1 w1
    obtain ⟨l1, l2⟩ := num_mul hx e1
    obtain ⟨m1, m2⟩ := num_sub l1 w1
    obtain ⟨n1, n2⟩ := num_mul t1 m1
    obtain ⟨o1, o2⟩ := num_mul hy k1
    obtain ⟨y1, y2⟩ := num_sub n1 o1
    obtain ⟨z1, z2⟩ := num_mul k1 hz
    have hu' : num p.x - num o.x * num p.z ≠ 0 := by
      rw [sub_ne_zero]; intro h0; exact hu ((div_eq_iff z0).2 h0)
    refine .mk ⟨x1, y1, z1, ?_⟩ rfl ?_
    · simp only [z2, k2, e2, u2, b2]
      exact mul_ne_zero (mul_ne_zero hu' (mul_ne_zero hu' hu')) z0
    · have hu2 : num p.x / num p.z ≠ num o.x / 1 := by rwa [div_one]
      obtain ⟨l, q1, q2, q3⟩ := add_formula (Y := num p.y) (B := num o.y) z0 one_ne_zero hu2
      simp only [mul_one, div_one] at q1 q2 q3
      have key := hc.add_ne hc' hu q1 rfl rfl
      rw [← q3, ← q2] at key
      simp only [x2, y2, z2, w2, g2, f2, t2, u2, b2, d2, e2, j2, i2, k2, n2, m2, l2, o2]
      exact key

theorem ProjPoint.negate_repr {p : ProjPoint} {P : StarkPoint} (h : p.Repr P) : p.negate.Repr (-P) := by
  obtain ⟨a1, a2⟩ := num_neg h.1.y
  have hv : p.negate.Valid := ⟨h.1.x, a1, h.1.z, h.1.z0⟩
  cases hi : p.infinity
  case true => rw [h.zero hi, neg_zero]; exact .mk0 hv hi
  case false =>
    refine .mk hv hi ?_
    have := (h.coords hi).neg
    unfold ProjPoint.negate
    simp only [a2]
    rwa [neg_div]

theorem ProjPoint.identity_repr : ProjPoint.identity.Repr 0 := by
  have h1 : num fieldMod.R = 1 := num_one.2
  refine .mk0 ⟨num_zero.1, num_zero.1, num_one.1, ?_⟩ rfl
  show num fieldMod.R ≠ 0
  rw [h1]; exact one_ne_zero

theorem ProjPoint.mulStep_repr {p q : ProjPoint} {P Q : StarkPoint} (h : p.Repr P) (h' : q.Repr Q) (b : Bool) :
    (p.mulStep q b).Repr (2 • Q + b.toNat • P) := by
  unfold ProjPoint.mulStep
  cases b
  · rw [if_neg (by decide), Bool.toNat_false, zero_nsmul, add_zero, two_nsmul]; exact double_repr h'
  · rw [if_pos rfl, Bool.toNat_true, one_nsmul, two_nsmul]; exact add_repr (double_repr h') h

theorem leValue_append (l : List Bool) (b : Bool) : leValue (l ++ [b]) = leValue l + 2 ^ l.length * b.toNat := by
  induction l with
  | nil => simp [leValue]
  | cons a l ih =>
    rw [List.cons_append, leValue, leValue, ih, List.length_cons, pow_succ]; ring

theorem ProjPoint.multiply_repr {p : ProjPoint} {P : StarkPoint} (h : p.Repr P) (bits : List Bool) :
    (p.multiply bits).Repr (leValue bits • P) := by
  unfold ProjPoint.multiply
  rw [List.foldl_reverse]
  induction bits with
  | nil => rw [leValue, zero_nsmul]; exact identity_repr
  | cons b l ih =>
    rw [List.foldr_cons, leValue]
    have := mulStep_repr h ih b
    rwa [← mul_nsmul', ← add_nsmul, Nat.add_comm] at this

end

end Verif.Crypto
