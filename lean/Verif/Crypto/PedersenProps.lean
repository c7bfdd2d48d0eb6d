import Verif.Crypto.PedersenLemmas
/-! # C33 and C52: multiplication with tables and the Pedersen hash -/
namespace Verif.Crypto

section
attribute [local irreducible] ProjPoint.addAffine addPoints AffPoint.ofProj

/-- `gen_multiply_elm`: multiples of the generator with the precomputed table, for every scalar. -/
theorem C33_gen_multiply_elm {e : Limbs} {G : StarkPoint} (he : Elem .scalar e) (hG : HasCoords G (gX : Spec.F) (gY : Spec.F)) :
    ∃ p, ProjPoint.genMultiplyElm e = some p ∧ p.Repr (value .scalar e • G) := by
  have hv := leBits_value he
  have hlt : leValue (leBits Kind.scalar.modulus e) < 2 ^ (4 * 63) := by
    rw [hv]; exact lt_trans (C29_value_lt he) (by decide)
  obtain ⟨p, h1, h2⟩ := addPoints_repr (by decide) (tableG_spec hG) ProjPoint.identity_repr hlt
  refine ⟨p, h1, ?_⟩
  rwa [zero_add, hv] at h2

/-- The Pedersen hash never panics, and it is the first coordinate of the point of the definition. (The point at infinity has no
coordinates; no inputs for which it is the result are known.) -/
theorem C52_pedersen {P0 P1 P2 P3 P4 : StarkPoint} (hP : PedersenPoints P0 P1 P2 P3 P4) {a b : Bytes} {m n : Nat} (ha : FeltOf a m)
    (hb : FeltOf b n) : ∃ f r, pedersenHash a b = some f ∧ FeltOf f r ∧
      ∀ x y, HasCoords (pedersenPoint P0 P1 P2 P3 P4 m n) x y → (r : Spec.F) = x := by
  obtain ⟨la, va⟩ := leViewBits_spec ha.bytes
  obtain ⟨lb, vb⟩ := leViewBits_spec hb.bytes
  have va' : leValue (leViewBits a) = m := va.trans ha.value
  have vb' : leValue (leViewBits b) = n := vb.trans hb.value
  rw [ha.length] at la
  rw [hb.length] at lb
  have key : ∀ {l : List Bool} {k : Nat}, l.length = 8 * 32 → leValue l = k → k < Kind.felt.prime →
      leValue (l.take 248) = k % 2 ^ 248 ∧ leValue (l.take 248) < 2 ^ (8 * 31) ∧ leValue ((l.drop 248).take 4) = k / 2 ^ 248 ∧
        ((l.drop 248).take 4).length = 4 := by
    intro l k hl hv hk
    obtain ⟨h1, h2⟩ := leValue_take_drop l 248 (by omega)
    obtain ⟨h3, _⟩ := leValue_take_drop (l.drop 248) 4 (by rw [List.length_drop]; omega)
    rw [hv] at h1 h2
    refine ⟨h1, h1 ▸ Nat.mod_lt _ (by positivity), ?_, ?_⟩
    · rw [h3, h2, Nat.mod_eq_of_lt]
      rw [Nat.div_lt_iff_lt_mul (by positivity)]
      exact lt_trans hk (by decide)
    · rw [List.length_take, List.length_drop, hl]; rfl
  obtain ⟨a1, a2, a3, a4⟩ := key la va' ha.below
  obtain ⟨b1, b2, b3, b4⟩ := key lb vb' hb.below
  obtain ⟨p1, e1, r1⟩ := addPoints_repr (by decide) (tableP1_spec hP) (pedersenP0_spec hP) a2
  obtain ⟨p2, e2, r2⟩ := addPoints_short (tableP2_spec hP) a4 r1
  obtain ⟨p3, e3, r3⟩ := addPoints_repr (by decide) (tableP3_spec hP) r2 b2
  obtain ⟨p4, e4, r4⟩ := addPoints_short (tableP4_spec hP) b4 r3
  rw [a1, a3, b1, b3] at r4
  obtain ⟨q, e5, hv, _, hx, _⟩ := AffPoint.ofProj_num r4.1
  obtain ⟨f, e6, hf⟩ := C28_of_mont (k := .felt) hv.x
  refine ⟨f, _, ?_, hf, ?_⟩
  · unfold pedersenHash
    simp only
    rw [e1, e2, e3, e4, Option.bind_some, e5, Option.bind_some]
    exact e6
  · intro x y hc
    have hi : p4.infinity = false := by
      cases hi : p4.infinity
      · rfl
      · exact absurd (r4.zero hi) hc.ne_zero
    exact hx.trans ((r4.coords hi).unique hc).1

end

/-- The points of the definition exist, and so does the hash of (0, 0): the first coordinate of `P0`. -/
example : ∃ P0 P1 P2 P3 P4, PedersenPoints P0 P1 P2 P3 P4 ∧
    ∃ f, pedersenHash (List.replicate 32 0) (List.replicate 32 0) = some f ∧
      FeltOf f 0x49ee3eba8c1600700ee1b87eb599f16716b0b1022947733551fde4050ca6804 := by
  obtain ⟨P0, P1, P2, P3, P4, hP⟩ := pedersenPoints
  refine ⟨P0, P1, P2, P3, P4, hP, ?_⟩
  have h0 : FeltOf (List.replicate 32 0) 0 := ⟨by decide, by decide, by decide, by decide⟩
  obtain ⟨f, r, h1, h2, h3⟩ := C52_pedersen hP h0 h0
  have hp : pedersenPoint P0 P1 P2 P3 P4 0 0 = P0 := by
    unfold pedersenPoint
    simp only [Nat.zero_mod, Nat.zero_div, zero_nsmul, add_zero]
  rw [hp] at h3
  have h4 := h3 _ _ hP.p0
  have hr : r = 0x49ee3eba8c1600700ee1b87eb599f16716b0b1022947733551fde4050ca6804 :=
    cast_inj (pN_eq ▸ h2.below) (by decide) h4
  exact ⟨f, h1, hr ▸ h2⟩

end Verif.Crypto
