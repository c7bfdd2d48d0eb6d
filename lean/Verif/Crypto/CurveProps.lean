import Verif.Crypto.CurveAffine
/-!
# C33: curve operations implement the group law

`Repr p P` (CurveSpec.lean): the program's point `p` stands for the point `P` of Mathlib's group of the Stark curve. Each operation
on points that stand for curve points ends without a panic in a point that stands for the result in the group.
-/
namespace Verif.Crypto

/-! ## Which points stand for curve points -/

/-- Every point with reduced coordinates that satisfies the curve equation stands for the curve point with its coordinates. -/
theorem C33_affine_points {p : AffPoint} (hx : Elem .felt p.x) (hy : Elem .felt p.y) (hi : p.infinity = false) :
    (∃ P, p.Repr P) ↔ num p.y ^ 2 = num p.x ^ 3 + num p.x + starkB := by
  constructor
  · rintro ⟨P, h⟩
    exact (h.coords hi).onCurve
  · intro h
    obtain ⟨P, hP⟩ := OnCurve.point h
    exact ⟨P, .mk ⟨hx, hy⟩ hi hP⟩

/-- Two affine points that stand for the same curve point have the same coordinates. -/
theorem C33_affine_unique {p q : AffPoint} {P : StarkPoint} (hp : p.Repr P) (hq : q.Repr P) :
    p.infinity = q.infinity ∧ (p.infinity = false → p = q) := by
  cases hi : p.infinity <;> cases hj : q.infinity
  · refine ⟨rfl, fun _ => ?_⟩
    obtain ⟨h1, h2⟩ := (hp.coords hi).unique (hq.coords hj)
    have key : ∀ {a b : Limbs}, Elem .felt a → Elem .felt b → num a = num b → a = b := by
      intro a b ha hb e
      unfold num at e
      have := (ZMod.natCast_eq_natCast_iff' _ _ _).1 e
      rw [Nat.mod_eq_of_lt (C29_value_lt ha), Nat.mod_eq_of_lt (C29_value_lt hb)] at this
      exact (C29_value_inj ha hb).1 this
    obtain ⟨px, py, pi⟩ := p
    obtain ⟨qx, qy, qi⟩ := q
    obtain rfl := key hp.1.x hq.1.x h1
    obtain rfl := key hp.1.y hq.1.y h2
    exact congrArg _ (hi.trans hj.symm)
  · exact absurd (hq.zero hj) (hp.coords hi).ne_zero
  · exact absurd (hp.zero hi) (hq.coords hj).ne_zero
  · exact ⟨rfl, fun h => absurd h (by decide)⟩

/-- The generator of the program is the published generator of the Stark curve. -/
theorem C33_generator : ∃ G, curveG.Repr G ∧ HasCoords G (gX : Spec.F) (gY : Spec.F) := by
  obtain ⟨G, hG⟩ := onCurve_g.point
  refine ⟨G, .mk ⟨num_gx.1, num_gy.1, num_R.1, ?_⟩ rfl ?_, hG⟩
  · show num fieldMod.R ≠ 0
    rw [num_R.2]; exact one_ne_zero
  · show HasCoords G (num curveG.x / num fieldMod.R) (num curveG.y / num fieldMod.R)
    rw [num_R.2, div_one, div_one, num_gx.2, num_gy.2]; exact hG

/-! ## Projective points -/

theorem C33_proj_add {p o : ProjPoint} {P Q : StarkPoint} (hp : p.Repr P) (ho : o.Repr Q) : (p.add o).Repr (P + Q) :=
  ProjPoint.add_repr hp ho

theorem C33_proj_double {p : ProjPoint} {P : StarkPoint} (hp : p.Repr P) : p.double.Repr (P + P) := ProjPoint.double_repr hp

theorem C33_proj_add_affine {p : ProjPoint} {o : AffPoint} {P Q : StarkPoint} (hp : p.Repr P) (ho : o.Repr Q) :
    (p.addAffine o).Repr (P + Q) := ProjPoint.addAffine_repr hp ho

theorem C33_proj_negate {p : ProjPoint} {P : StarkPoint} (hp : p.Repr P) : p.negate.Repr (-P) := ProjPoint.negate_repr hp

theorem C33_proj_identity : ProjPoint.identity.Repr 0 := ProjPoint.identity_repr

/-- `multiply` with any number of bits. -/
theorem C33_proj_multiply {p : ProjPoint} {P : StarkPoint} (hp : p.Repr P) (bits : List Bool) :
    (p.multiply bits).Repr (leValue bits • P) := ProjPoint.multiply_repr hp bits

/-- `multiply_elm` with a scalar below the curve order. -/
theorem C33_proj_multiply_elm {p : ProjPoint} {P : StarkPoint} {e : Limbs} (hp : p.Repr P) (he : Elem .scalar e) :
    (p.multiplyElm e).Repr (value .scalar e • P) := by
  rw [← leBits_value he]
  exact ProjPoint.multiply_repr hp _

/-! ## Affine points: no division by zero occurs -/

theorem C33_affine_add {p o : AffPoint} {P Q : StarkPoint} (hp : p.Repr P) (ho : o.Repr Q) :
    ∃ q, p.add o = some q ∧ q.Repr (P + Q) := AffPoint.add_repr hp ho

theorem C33_affine_double {p : AffPoint} {P : StarkPoint} (hp : p.Repr P) : ∃ q, p.double = some q ∧ q.Repr (P + P) :=
  AffPoint.double_repr hp

theorem C33_affine_negate {p : AffPoint} {P : StarkPoint} (hp : p.Repr P) : p.negate.Repr (-P) := AffPoint.negate_repr hp

theorem C33_affine_identity : AffPoint.identity.Repr 0 := AffPoint.identity_repr

theorem C33_affine_multiply {p : AffPoint} {P : StarkPoint} (hp : p.Repr P) (bits : List Bool) :
    ∃ q, p.multiply bits = some q ∧ q.Repr (leValue bits • P) := AffPoint.multiply_repr hp bits

/-- `multiply_elm` of an affine point, whose scalar is an element of the coordinate field. -/
theorem C33_affine_multiply_elm {p : AffPoint} {P : StarkPoint} {e : Limbs} (hp : p.Repr P) (he : Elem .felt e) :
    ∃ q, p.multiplyElm e = some q ∧ q.Repr (value .felt e • P) := by
  rw [← leBits_value he]
  exact AffPoint.multiply_repr hp _

/-! ## Conversions -/

/-- A finite affine point and its projective form stand for the same point. -/
theorem C33_to_projective {p : AffPoint} {P : StarkPoint} (hp : p.Repr P) (hi : p.infinity = false) :
    (ProjPoint.ofAffine p).Repr P := ProjPoint.ofAffine_repr hp hi

/-- A finite projective point and its affine form stand for the same point. -/
theorem C33_to_affine {p : ProjPoint} {P : StarkPoint} (hp : p.Repr P) (hi : p.infinity = false) :
    ∃ q, AffPoint.ofProj p = some q ∧ q.Repr P := by
  obtain ⟨q, h1, h2, _⟩ := AffPoint.ofProj_repr hp hi
  exact ⟨q, h1, h2⟩

/-- `from_x` ends, and finds a point with the given first coordinate if there is one. -/
theorem C33_from_x {x : Limbs} (h : Elem .felt x) :
    (∃ p P, AffPoint.fromX x = some (some p) ∧ p.Repr P ∧ p.x = x ∧ p.infinity = false) ∨
    AffPoint.fromX x = some none ∧ ∀ y, ¬ OnCurve (num x) y := AffPoint.fromX_spec h

/-- The conversion to affine coordinates does not look at the flag: the point at infinity becomes the finite point (0, 0), which is
not on the curve. -/
theorem C33_infinity_to_affine_violated :
    ∃ (p : ProjPoint) (q : AffPoint), p.Repr 0 ∧ AffPoint.ofProj p = some q ∧ q.infinity = false ∧ ¬ ∃ P, q.Repr P := by
  obtain ⟨q, h1, h2, h3, h4, h5⟩ := AffPoint.ofProj_num ProjPoint.identity_repr.1
  refine ⟨_, q, ProjPoint.identity_repr, h1, h3, ?_⟩
  rw [C33_affine_points h2.x h2.y h3, h4, h5]
  have h0 : num ProjPoint.identity.x = 0 := num_zero.2
  have h0' : num ProjPoint.identity.y = 0 := num_zero.2
  rw [h0, h0', zero_div]
  intro h
  refine no_root 0 ?_
  rw [← h]; ring

/-- The same for the other direction. -/
theorem C33_infinity_to_projective_violated :
    ∃ (p : AffPoint), p.Repr 0 ∧ (ProjPoint.ofAffine p).infinity = false ∧ ¬ ∃ P, (ProjPoint.ofAffine p).Repr P := by
  refine ⟨_, AffPoint.identity_repr, rfl, ?_⟩
  rintro ⟨P, h⟩
  have hc := (h.coords rfl).onCurve
  have e1 : num (ProjPoint.ofAffine AffPoint.identity).x = 0 := num_zero.2
  have e2 : num (ProjPoint.ofAffine AffPoint.identity).y = 0 := num_zero.2
  rw [e1, e2, zero_div] at hc
  unfold OnCurve at hc
  refine no_root 0 ?_
  rw [← hc]; ring

/-! ## The hypotheses are met -/

/-- The generator and its double, in projective form; the sum is not the point at infinity. -/
example : ∃ G, curveG.Repr G ∧ G ≠ 0 ∧ (curveG.add curveG.double).Repr (G + (G + G)) := by
  obtain ⟨G, h, hc⟩ := C33_generator
  exact ⟨G, h, hc.ne_zero, C33_proj_add h (C33_proj_double h)⟩

/-- The generator in affine form, and a multiple by five. -/
example : ∃ p G q, AffPoint.Repr p G ∧ G ≠ 0 ∧ p.multiply [true, false, true] = some q ∧ q.Repr (5 • G) := by
  obtain ⟨G, h, hc⟩ := C33_generator
  obtain ⟨p, h1, h2⟩ := C33_to_affine h rfl
  obtain ⟨q, h3, h4⟩ := C33_affine_multiply h2 [true, false, true]
  exact ⟨p, G, q, h2, hc.ne_zero, h3, h4⟩

end Verif.Crypto
