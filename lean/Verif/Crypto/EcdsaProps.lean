import Verif.Crypto.EcdsaLemmas
/-! # C34, C35 and C51: signatures -/
namespace Verif.Crypto

section
attribute [local irreducible] mul add inverse feltLt montFromBytes scalarOfMont scalarOfFelt verifyPoints montReduce toNative
  AffPoint.fromX signNonce verifyInner AffPoint.genMultiplyElm feltOfMont

/-- The public key of a first coordinate: a point of the curve with it, if there is one. -/
theorem getPkPoint_spec {x : Limbs} (h : Elem .felt x) :
    (∃ p Q, getPkPoint x = some (some p) ∧ p.Repr Q ∧ p.infinity = false ∧ p.x = x ∧ (ProjPoint.ofAffine p).Repr Q ∧
      HasCoords Q (num x) (num p.y)) ∨
    getPkPoint x = some none ∧ ∀ y, ¬ OnCurve (num x) y := by
  rcases C33_from_x h with ⟨p, P, h1, h2, h3, h4⟩ | ⟨h1, h2⟩
  · left
    refine ⟨p, P, ?_, h2, h4, h3, C33_to_projective h2 h4, ?_⟩
    · unfold getPkPoint
      rw [h1, Option.map_some, Option.filter_some_pos]
      rw [h4]; rfl
    · have := h2.coords h4
      rwa [h3] at this
  · right
    refine ⟨?_, h2⟩
    unfold getPkPoint
    rw [h1]; rfl

/-! ## C35 -/

/-- Verification panics exactly if the public key is on the curve and the message or a part of the signature is not below the
order of the curve. -/
theorem C35_panics_iff {pk z r s : Bytes} {x m n k : Nat} (hpk : FeltOf pk x) (hz : FeltOf z m) (hr : FeltOf r n) (hs : FeltOf s k) :
    ecdsaVerifyPartial pk z r s = none ↔
      (∃ y, OnCurve (x : Spec.F) y) ∧ (sigOrder ≤ m ∨ sigOrder ≤ n ∨ sigOrder ≤ k) := by
  obtain ⟨x1, x2⟩ := C28_mont_felt hpk
  have hnum : num (montFromBytes fieldMod pk) = (x : Spec.F) := by unfold num; rw [x2]
  obtain ⟨G, _, hG⟩ := C33_generator
  unfold ecdsaVerifyPartial
  rcases getPkPoint_spec x1 with ⟨p, Q, h1, _, _, _, h2, h3⟩ | ⟨h1, h2⟩
  · rw [h1, Option.bind_some]
    simp only
    rw [hnum] at h3
    constructor
    · intro h
      refine ⟨⟨_, h3.onCurve⟩, ?_⟩
      by_contra hc
      obtain ⟨res, e, _⟩ := verifyInner_spec hG h2 hz hr hs (by omega) (by omega) (by omega)
      rw [h] at e; cases e
    · rintro ⟨_, h⟩
      exact verifyInner_panic hz hr hs h
  · rw [h1, Option.bind_some]
    simp only
    rw [hnum] at h2
    constructor
    · intro h; cases h
    · rintro ⟨⟨y, hy⟩, _⟩
      exact absurd hy (h2 y)

/-- Verification never panics for numbers below the order of the curve. Missing for the full property: numbers from the order up to
the field prime, for which it does panic. -/
theorem C35_no_panic_partial {pk z r s : Bytes} {x m n k : Nat} (hpk : FeltOf pk x) (hz : FeltOf z m) (hr : FeltOf r n)
    (hs : FeltOf s k) (hm : m < sigOrder) (hn : n < sigOrder) (hk : k < sigOrder) :
    ∃ res, ecdsaVerifyPartial pk z r s = some res := by
  cases h : ecdsaVerifyPartial pk z r s with
  | some res => exact ⟨res, rfl⟩
  | none =>
    have := ((C35_panics_iff hpk hz hr hs).1 h).2
    omega

/-- The same for a full public key: whatever its coordinates are. -/
theorem C35_full_key_partial {pk : AffPoint} {z r s : Bytes} {m n k : Nat} (hpk : pk.Valid) (hz : FeltOf z m) (hr : FeltOf r n)
    (hs : FeltOf s k) (hm : m < sigOrder) (hn : n < sigOrder) (hk : k < sigOrder) : ∃ res, ecdsaVerify pk z r s = some res := by
  obtain ⟨G, _, hG⟩ := C33_generator
  unfold ecdsaVerify
  rcases getPkPoint_spec hpk.x with ⟨p, Q, h1, _, _, _, h2, _⟩ | ⟨h1, _⟩
  · rw [h1, Option.bind_some]
    simp only
    by_cases hy : p.y ≠ pk.y
    · rw [if_pos hy]; exact ⟨_, rfl⟩
    · rw [if_neg hy]
      obtain ⟨res, e, _⟩ := verifyInner_spec hG h2 hz hr hs hm hn hk
      exact ⟨res, e⟩
  · rw [h1]; exact ⟨_, rfl⟩

theorem feltOf_exists {n : Nat} (h : n < Kind.felt.prime) : ∃ f, FeltOf f n := by
  obtain ⟨x, h1, h2⟩ := C29_surjective h
  obtain ⟨f, _, h3⟩ := C28_of_mont h1
  exact ⟨f, h2 ▸ h3⟩

/-- Violation: a message equal to the order of the curve, for the public key of the generator. -/
theorem C35_violated : ∃ pk z r s : Bytes, ∃ x m n k, FeltOf pk x ∧ FeltOf z m ∧ FeltOf r n ∧ FeltOf s k ∧
    ecdsaVerifyPartial pk z r s = none := by
  obtain ⟨pk, hpk⟩ := feltOf_exists (n := gX) (by decide +kernel)
  obtain ⟨z, hz⟩ := feltOf_exists order_lt_prime
  obtain ⟨r, hr⟩ := feltOf_exists (n := 1) (by decide +kernel)
  exact ⟨pk, z, r, r, _, _, _, _, hpk, hz, hr, hr, (C35_panics_iff hpk hz hr hr).2 ⟨⟨_, onCurve_g⟩, .inl le_rfl⟩⟩

/-! ## C51 -/

theorem SigValid.neg {G Q : StarkPoint} {z r s : Nat} (h : SigValid G Q z r s) : SigValid G (-Q) z r s := by
  obtain ⟨w, R, y, h1, h2, h3⟩ := h
  refine ⟨w, R, y, h1, h2, ?_⟩
  rcases h3 with h3 | h3
  · right; rw [h3, neg_nsmul, sub_neg_eq_add]
  · left; rw [h3, neg_nsmul, sub_eq_add_neg]

theorem inverse_unique {N k w w' : Nat} (h : k * w % N = 1) (h' : k * w' % N = 1) (a : Nat) : a * w % N = a * w' % N := by
  have hN : 1 % N = 1 := by
    rcases N with _ | _ | N
    · rfl
    · simp [Nat.mod_one] at h
    · rw [Nat.mod_eq_of_lt (by omega)]
  have e1 : k * w ≡ 1 [MOD N] := by unfold Nat.ModEq; rw [h, hN]
  have e2 : k * w' ≡ 1 [MOD N] := by unfold Nat.ModEq; rw [h', hN]
  have : a * w ≡ a * w' [MOD N] := by
    calc a * w = a * w * 1 := by ring
      _ ≡ a * w * (k * w') [MOD N] := (e2.symm).mul_left _
      _ = a * w' * (k * w) := by ring
      _ ≡ a * w' * 1 [MOD N] := e1.mul_left _
      _ = a * w' := by ring
  exact this

/-- Every signature that is valid by the definition and within the bounds is accepted. -/
theorem C51_accepts {pk z r s : Bytes} {x m n k : Nat} {G Q : StarkPoint} {y : Spec.F} (hG : IsGenerator G) (hpk : FeltOf pk x)
    (hQ : HasCoords Q (x : Spec.F) y) (hz : FeltOf z m) (hr : FeltOf r n) (hs : FeltOf s k) (hb : SigBounds m n k)
    (hv : SigValid G Q m n k) : ecdsaVerifyPartial pk z r s = some (.ok ()) := by
  obtain ⟨x1, x2⟩ := C28_mont_felt hpk
  have hnum : num (montFromBytes fieldMod pk) = (x : Spec.F) := by unfold num; rw [x2]
  have hlt := bound_lt_order
  unfold ecdsaVerifyPartial
  rcases getPkPoint_spec x1 with ⟨p, Q', h1, _, _, _, h2, h3⟩ | ⟨h1, h2⟩
  · rw [h1, Option.bind_some]
    simp only
    rw [hnum] at h3
    have hv' : SigValid G Q' m n k := by
      rcases hQ.same_x h3 with e | e
      · rw [← e]; exact hv
      · have e' : Q' = -Q := by rw [e, neg_neg]
        rw [e']; exact hv.neg
    obtain ⟨res, e1, _, e2⟩ := verifyInner_spec hG h2 hz hr hs (lt_trans hb.1 hlt) (lt_trans hb.2.2.1 hlt) (lt_trans hb.2.2.2.2 hlt)
    obtain ⟨w, w1, _, w2, _, _⟩ := e2 hb
    obtain ⟨w', R, y', v1, v2, v3⟩ := hv'
    rw [inverse_unique v1 w1 m, inverse_unique v1 w1 n] at v3
    rw [e1, w2]
    refine ⟨y', ?_⟩
    rcases v3 with v3 | v3
    · left; rw [← v3]; exact v2
    · right; rw [← v3]; exact v2
  · rw [hnum] at h2
    exact absurd hQ.onCurve (h2 _)

/-- What is accepted is within the bounds and for a public key on the curve, and it is valid by the definition unless the nonce point
is the point at infinity. Missing for the full property: the point at infinity is not rejected. -/
theorem C51_sound_partial {pk z r s : Bytes} {x m n k : Nat} {G : StarkPoint} (hG : IsGenerator G) (hpk : FeltOf pk x)
    (hz : FeltOf z m) (hr : FeltOf r n) (hs : FeltOf s k) (h : ecdsaVerifyPartial pk z r s = some (.ok ())) :
    SigBounds m n k ∧ ∃ Q y, HasCoords Q (x : Spec.F) y ∧ (SigValid G Q m n k ∨ ∃ w, k * w % sigOrder = 1 ∧
      ((m * w % sigOrder) • G + (n * w % sigOrder) • Q = 0 ∨ (m * w % sigOrder) • G - (n * w % sigOrder) • Q = 0) ∧
      ((m * w % sigOrder) • G = 0 ∨ ∃ y, HasCoords ((m * w % sigOrder) • G) (n : Spec.F) y)) := by
  obtain ⟨x1, x2⟩ := C28_mont_felt hpk
  have hnum : num (montFromBytes fieldMod pk) = (x : Spec.F) := by unfold num; rw [x2]
  unfold ecdsaVerifyPartial at h
  rcases getPkPoint_spec x1 with ⟨p, Q, h1, _, _, _, h2, h3⟩ | ⟨h1, h2⟩
  · rw [h1, Option.bind_some] at h
    simp only at h
    rw [hnum] at h3
    have hlt : m < sigOrder ∧ n < sigOrder ∧ k < sigOrder := by
      by_contra hc
      rw [verifyInner_panic hz hr hs (by omega)] at h
      cases h
    obtain ⟨res, e1, e2, e3⟩ := verifyInner_spec hG h2 hz hr hs hlt.1 hlt.2.1 hlt.2.2
    rw [e1, Option.some_inj] at h
    have hb := e2 h
    obtain ⟨w, w1, _, _, _, w3⟩ := e3 hb
    refine ⟨hb, Q, _, h3, ?_⟩
    rcases w3 h with ⟨y, hy | hy⟩ | h0
    · exact .inl ⟨w, _, y, w1, hy, .inl rfl⟩
    · exact .inl ⟨w, _, y, w1, hy, .inr rfl⟩
    · exact .inr ⟨w, w1, h0⟩
  · rw [h1, Option.bind_some] at h
    simp only [Option.some_inj] at h
    cases h

/-- The other case of `C51_sound_partial` does occur: if one of the candidates for the nonce point is the point at infinity, then the
first coordinate of `zw G` is taken for its first coordinate. -/
theorem C51_infinity {pk z r s : Bytes} {x m n k w : Nat} {G Q : StarkPoint} {y y' : Spec.F} (hG : IsGenerator G) (hpk : FeltOf pk x)
    (hQ : HasCoords Q (x : Spec.F) y) (hz : FeltOf z m) (hr : FeltOf r n) (hs : FeltOf s k) (hb : SigBounds m n k)
    (hw : k * w % sigOrder = 1)
    (h0 : (m * w % sigOrder) • G + (n * w % sigOrder) • Q = 0 ∨ (m * w % sigOrder) • G - (n * w % sigOrder) • Q = 0)
    (hx : HasCoords ((m * w % sigOrder) • G) (n : Spec.F) y') : ecdsaVerifyPartial pk z r s = some (.ok ()) := by
  obtain ⟨x1, x2⟩ := C28_mont_felt hpk
  have hnum : num (montFromBytes fieldMod pk) = (x : Spec.F) := by unfold num; rw [x2]
  have hlt := bound_lt_order
  unfold ecdsaVerifyPartial
  rcases getPkPoint_spec x1 with ⟨p, Q', h1, _, _, _, h2, h3⟩ | ⟨h1, h2⟩
  · rw [h1, Option.bind_some]
    simp only
    rw [hnum] at h3
    have h0' : (m * w % sigOrder) • G + (n * w % sigOrder) • Q' = 0 ∨ (m * w % sigOrder) • G - (n * w % sigOrder) • Q' = 0 := by
      rcases hQ.same_x h3 with e | e
      · rw [← e]; exact h0
      · have e' : Q' = -Q := by rw [e, neg_neg]
        rw [e', neg_nsmul, sub_neg_eq_add, ← sub_eq_add_neg]; exact h0.symm
    obtain ⟨res, e1, _, e2⟩ := verifyInner_spec hG h2 hz hr hs (lt_trans hb.1 hlt) (lt_trans hb.2.2.1 hlt) (lt_trans hb.2.2.2.2 hlt)
    obtain ⟨w', w1, _, _, w2, _⟩ := e2 hb
    rw [inverse_unique hw w1 m, inverse_unique hw w1 n] at h0'
    rw [inverse_unique hw w1 m] at hx
    rw [e1, w2 h0' ⟨_, hx⟩]
  · rw [hnum] at h2
    exact absurd hQ.onCurve (h2 _)

theorem gen_sub_x : sigOrder - gX < 2 ^ 251 ∧ 0 < sigOrder - gX ∧ 0 < gX ∧ gX < 2 ^ 251 ∧ gX < sigOrder := by decide +kernel
theorem three_lt_order : 3 < sigOrder := by decide +kernel

/-- Violation: an accepted signature that is not valid by the definition, for the public key of the generator. -/
theorem C51_violated {G : StarkPoint} (hG : IsGenerator G) : ∃ pk z r s : Bytes, ∃ x m n k, FeltOf pk x ∧ FeltOf z m ∧ FeltOf r n ∧
    FeltOf s k ∧ ecdsaVerifyPartial pk z r s = some (.ok ()) ∧ (∃ Q y, HasCoords Q (x : Spec.F) y) ∧
    ∀ Q y, HasCoords Q (x : Spec.F) y → ¬ SigValid G Q m n k := by
  obtain ⟨l1, l2, l3, l4, l5⟩ := gen_sub_x
  have hlp := order_lt_prime
  have h3 := three_lt_order
  have hprime := C29_prime .scalar
  obtain ⟨pk, hpk⟩ := feltOf_exists (n := gX) (by omega)
  obtain ⟨z, hz⟩ := feltOf_exists (n := sigOrder - gX) (by omega)
  -- the inverse of `N - gX`
  have hcop : Nat.Coprime (sigOrder - gX) sigOrder :=
    (Nat.Coprime.symm ((Nat.Prime.coprime_iff_not_dvd hprime).2 fun h => absurd (Nat.le_of_dvd l2 h) (show ¬ sigOrder ≤ sigOrder - gX by omega)))
  obtain ⟨w, _, hw⟩ := Nat.exists_mul_mod_eq_one_of_coprime hcop (by omega)
  have e1 : (sigOrder - gX) * w % sigOrder = 1 := hw
  have e2 : gX * w % sigOrder = sigOrder - 1 := by
    have hsum : (gX * w + (sigOrder - gX) * w) % sigOrder = 0 := by
      rw [← Nat.add_mul, show gX + (sigOrder - gX) = sigOrder by omega, Nat.mul_mod_right]
    have := Nat.mod_lt (gX * w) (show 0 < sigOrder by omega)
    rw [Nat.add_mod, e1] at hsum
    by_contra hc
    rw [Nat.mod_eq_of_lt (by omega)] at hsum
    omega
  have hneg : (sigOrder - 1) • G = -G := by
    have := order_smul hG
    rw [show Kind.scalar.prime = (sigOrder - 1) + 1 from (Nat.succ_pred_eq_of_pos (show 0 < sigOrder by omega)).symm, add_nsmul, one_nsmul] at this
    exact eq_neg_of_add_eq_zero_left this
  refine ⟨pk, z, pk, z, gX, sigOrder - gX, gX, sigOrder - gX, hpk, hz, hpk, hz, ?_, ⟨G, _, hG⟩, ?_⟩
  · refine C51_infinity hG hpk hG hz hpk hz ⟨l1, l3, l4, l2, l1⟩ e1 ?_ (y' := (gY : Spec.F)) ?_
    · left; rw [e1, e2, hneg, one_nsmul, add_neg_cancel]
    · rw [e1, one_nsmul]; exact hG
  · rintro Q y hQ ⟨w', R, y', v1, v2, v3⟩
    rw [inverse_unique v1 e1, inverse_unique v1 e1, e1, e2, one_nsmul] at v3
    have hR : R = 0 ∨ R = 2 • G := by
      rcases HasCoords.same_x (P := Q) (Q := G) hQ hG with rfl | rfl
      · rw [hneg, add_neg_cancel, sub_neg_eq_add, ← two_nsmul] at v3; exact v3
      · rw [neg_nsmul, hneg, neg_neg, sub_self, ← two_nsmul] at v3; exact v3.symm
    rcases hR with rfl | rfl
    · exact v2.ne_zero rfl
    · rcases HasCoords.same_x (P := 2 • G) (Q := G) v2 hG with h | h
      · have h : 1 • G = 0 := by
          rw [two_nsmul] at h; rw [one_nsmul]; exact left_eq_add.1 h.symm
        exact absurd (Nat.le_of_dvd (by omega) ((smul_eq_zero_iff hG 1).1 h)) (show ¬ sigOrder ≤ 1 by omega)
      · have h : 3 • G = 0 := by
          rw [show 3 = 2 + 1 from rfl, add_nsmul, h, one_nsmul, neg_add_cancel]
        exact absurd (Nat.le_of_dvd (by omega) ((smul_eq_zero_iff hG 3).1 h)) (show ¬ sigOrder ≤ 3 by omega)

/-! ## C34 -/

/-- The public key of a secret key is the first coordinate of that multiple of the generator. -/
theorem C34_public_key {sk : Bytes} {a : Nat} {G : StarkPoint} (hG : IsGenerator G) (h : FeltOf sk a) (h0 : 0 < a) (ha : a < sigOrder) :
    ∃ pk x y, getPk sk = some (some pk) ∧ FeltOf pk x ∧ HasCoords (a • G) ((x : Nat) : Spec.F) y := by
  obtain ⟨c, e1, e2, e3⟩ := scalarOfFelt_some h ha
  obtain ⟨p, p1, p2, p3⟩ := genMultiply_affine e2 hG (by omega)
  obtain ⟨f, f1, f2⟩ := C28_of_mont (k := .felt) p2.1.x
  have f1' : feltOfMont fieldMod p.x = some f := f1
  refine ⟨f, _, num p.y, ?_, f2, ?_⟩
  · unfold getPk
    rw [e1, Option.elim_some, p1, Option.bind_some, f1', Option.map_some]
  · rw [← e3]; exact p2.coords p3

/-- The signature for a nonce: the first coordinate `r` of the nonce point, and `s` with `s k = z + r sk` modulo the order. -/
theorem C34_sign {sk z k : Bytes} {a m c : Nat} {fr fs : Bytes} {G : StarkPoint} (hG : IsGenerator G) (hsk : FeltOf sk a)
    (hz : FeltOf z m) (hk : FeltOf k c) (h : ecdsaSignK sk z k = some (.ok (fr, fs))) :
    a < sigOrder ∧ m < sigOrder ∧ 0 < c ∧ c < sigOrder ∧ ∃ r s y, FeltOf fr r ∧ FeltOf fs s ∧ r < 2 ^ 251 ∧ s < sigOrder ∧
      HasCoords (c • G) (r : Spec.F) y ∧ s * c % sigOrder = (m + r * a) % sigOrder := by
  unfold ecdsaSignK at h
  by_cases ha : a < sigOrder
  case neg => rw [scalarOfFelt_none hsk (by omega), Option.elim_none, Option.some_inj] at h; cases h
  obtain ⟨ca, a1, a2, a3⟩ := scalarOfFelt_some hsk ha
  rw [a1, Option.elim_some] at h
  by_cases hm : m < sigOrder
  case neg => rw [scalarOfFelt_none hz (by omega), Option.elim_none, Option.some_inj] at h; cases h
  obtain ⟨cm, b1, b2, b3⟩ := scalarOfFelt_some hz hm
  rw [b1, Option.elim_some] at h
  by_cases hc : c < sigOrder
  case neg => rw [scalarOfFelt_none hk (by omega), Option.elim_none, Option.some_inj] at h; cases h
  obtain ⟨cc, c1, c2, c3⟩ := scalarOfFelt_some hk hc
  rw [c1, Option.elim_some] at h
  by_cases h0 : c = 0
  · have : cc = zero := (C29_value_inj c2 (C29_zero .scalar).1).1 (by rw [c3, h0, (C29_zero .scalar).2])
    unfold signNonce at h
    rw [if_pos this, Option.some_inj] at h; cases h
  obtain ⟨x, y, d1, _, d2, d3⟩ := signNonce_spec hG a2 b2 c2 (by omega)
  by_cases hx : x < 2 ^ 251
  case neg => rw [d2 (by omega), Option.some_inj] at h; cases h
  obtain ⟨fr', fs', s, f1, f2, f3, f4, f5⟩ := d3 hx
  rw [f1, Option.some_inj] at h
  injection h with h
  injection h with h1 h2
  subst h1; subst h2
  rw [c3] at d1 f5
  rw [b3, a3] at f5
  exact ⟨ha, hm, by omega, hc, x, s, y, f2, f3, hx, f4, d1, f5⟩

/-- Whatever nonce is used, what signing returns verifies with the public key of the secret key, if the message and the signature are
within the bounds that verification enforces. Missing for the full property: signing does not enforce these bounds. -/
theorem C34_verifies_partial {sk z k : Bytes} {a m c n t : Nat} {pk fr fs : Bytes} (hsk : FeltOf sk a) (h0 : 0 < a)
    (hz : FeltOf z m) (hk : FeltOf k c) (h : ecdsaSignK sk z k = some (.ok (fr, fs))) (hpk : getPk sk = some (some pk))
    (hr : FeltOf fr n) (hs : FeltOf fs t) (hb : SigBounds m n t) : ecdsaVerifyPartial pk z fr fs = some (.ok ()) := by
  obtain ⟨G, _, hG⟩ := C33_generator
  obtain ⟨l1, l2, l3, l4, r, s, y, f1, f2, f3, f4, f5, f6⟩ := C34_sign hG hsk hz hk h
  obtain rfl : r = n := f1.value.symm.trans hr.value
  obtain rfl : s = t := f2.value.symm.trans hs.value
  obtain ⟨pk', x, y', g1, g2, g3⟩ := C34_public_key hG hsk h0 l1
  rw [hpk, Option.some_inj, Option.some_inj] at g1
  subst g1
  have hprime := C29_prime .scalar
  have hcop : Nat.Coprime s sigOrder :=
    (Nat.Coprime.symm ((Nat.Prime.coprime_iff_not_dvd hprime).2 fun h => absurd (Nat.le_of_dvd hb.2.2.2.1 h) (show ¬ sigOrder ≤ s by omega)))
  obtain ⟨w, _, hw⟩ := Nat.exists_mul_mod_eq_one_of_coprime hcop (by have := three_lt_order; omega)
  refine C51_accepts hG g2 g3 hz hr hs hb ⟨w, c • G, y, hw, f5, .inl ?_⟩
  have h1 : (m * w % sigOrder) • G = (m * w) • G := smul_mod hG _
  have h2 : (r * w % sigOrder) • (a • G) = (a * (r * w)) • G := by
    rw [← mul_nsmul, ← smul_mod hG, Nat.mul_mod, Nat.mod_mod, ← Nat.mul_mod, smul_mod hG]
  rw [h1, h2, ← add_nsmul, ← smul_mod hG c, ← smul_mod hG (m * w + a * (r * w))]
  congr 1
  have e1 : s * w ≡ 1 [MOD sigOrder] := by
    unfold Nat.ModEq; rw [hw, Nat.mod_eq_of_lt (by have := three_lt_order; omega)]
  have e2 : s * c ≡ m + r * a [MOD sigOrder] := f6
  have : c ≡ m * w + a * (r * w) [MOD sigOrder] := by
    calc c = 1 * c := by ring
      _ ≡ s * w * c [MOD sigOrder] := (e1.symm).mul_right _
      _ = w * (s * c) := by ring
      _ ≡ w * (m + r * a) [MOD sigOrder] := e2.mul_left _
      _ = m * w + a * (r * w) := by ring
  exact this

/-- Violation: signing within the bounds for keys, messages and nonces returns a signature that verification rejects. -/
theorem C34_violated : ∃ sk z k pk fr fs : Bytes, ∃ a m c, FeltOf sk a ∧ 0 < a ∧ FeltOf z m ∧ m < 2 ^ 251 ∧ FeltOf k c ∧ 0 < c ∧
    getPk sk = some (some pk) ∧ ecdsaSignK sk z k = some (.ok (fr, fs)) ∧
    ∃ e, ecdsaVerifyPartial pk z fr fs = some (.error e) := by
  obtain ⟨G, _, hG⟩ := C33_generator
  obtain ⟨l1, l2, l3, l4, l5⟩ := gen_sub_x
  have hlp := order_lt_prime
  have h3 := three_lt_order
  obtain ⟨sk, hsk⟩ := feltOf_exists (n := 1) (by omega)
  obtain ⟨z, hz⟩ := feltOf_exists (n := sigOrder - gX) (by omega)
  obtain ⟨pk, x, y, g1, g2, g3⟩ := C34_public_key hG hsk (by omega) (by omega)
  obtain ⟨ca, a1, a2, a3⟩ := scalarOfFelt_some hsk (by omega)
  obtain ⟨cm, b1, b2, b3⟩ := scalarOfFelt_some hz (by omega)
  obtain ⟨x', y', d1, dp, d2, d3⟩ := signNonce_spec hG a2 b2 a2 (by omega)
  rw [a3, one_nsmul] at d1
  have hx : x' = gX := by
    have := (d1.unique hG).1
    exact cast_inj dp (show gX < Kind.felt.prime by omega) this
  rw [hx] at d3
  obtain ⟨fr, fs, s, f1, f2, f3, f4, f5⟩ := d3 l4
  have hsum : sigOrder - gX + gX = sigOrder := Nat.sub_add_cancel l5.le
  rw [a3, b3, Nat.mul_one, Nat.mul_one, hsum, Nat.mod_self, Nat.mod_eq_of_lt f4] at f5
  have hsign : ecdsaSignK sk z sk = some (.ok (fr, fs)) := by
    unfold ecdsaSignK
    rw [a1, Option.elim_some, b1, Option.elim_some, Option.elim_some]
    exact f1
  refine ⟨sk, z, sk, pk, fr, fs, 1, sigOrder - gX, 1, hsk, by omega, hz, l1, hsk, by omega, g1, hsign, ?_⟩
  obtain ⟨res, hres⟩ := C35_no_panic_partial g2 hz f2 f3 (by omega) (by omega) f4
  rw [hres]
  cases res with
  | error e => exact ⟨e, rfl⟩
  | ok u =>
    have := (C51_sound_partial hG g2 hz f2 f3 hres).1.2.2.2.1
    omega

/-- Violation: with full public keys, one of every two opposite keys is rejected for all messages and signatures, although both are
points of the curve. -/
theorem C34_full_key_violated {p : AffPoint} {P : StarkPoint} (hp : p.Repr P) (hi : p.infinity = false) :
    (∀ z r s, ecdsaVerify p z r s = some (.error .publicKey)) ∨ (∀ z r s, ecdsaVerify p.negate z r s = some (.error .publicKey)) := by
  have hn := C33_affine_negate hp
  have hi' : p.negate.infinity = false := hi
  have hc := hp.coords hi
  have hc' := hn.coords hi'
  have hy : p.y ≠ p.negate.y := by
    intro e
    have h1 : HasCoords (-P) (num p.x) (num p.y) := by
      have := hc'
      rw [← e] at this; exact this
    exact y_ne_neg hc.onCurve (h1.unique hc.neg).2
  rcases getPkPoint_spec hp.1.x with ⟨q, Q, h1, _⟩ | ⟨h1, h2⟩
  · by_cases he : q.y = p.y
    · right
      intro z r s
      unfold ecdsaVerify
      rw [show getPkPoint p.negate.x = some (some q) from h1, Option.bind_some]
      simp only
      rw [if_pos (he ▸ hy)]
    · left
      intro z r s
      unfold ecdsaVerify
      rw [h1, Option.bind_some]
      simp only
      rw [if_pos he]
  · exact absurd hc.onCurve (h2 _)

/-! ## The hypotheses are met -/

/-- Secret key 1, nonce 1 and message 0: the signature is `(gX, gX)`, and meets all bounds. -/
theorem sign_one : ∃ sk z pk fr fs : Bytes, FeltOf sk 1 ∧ FeltOf z 0 ∧ getPk sk = some (some pk) ∧ FeltOf pk gX ∧
    ecdsaSignK sk z sk = some (.ok (fr, fs)) ∧ FeltOf fr gX ∧ FeltOf fs gX ∧ SigBounds 0 gX gX := by
  obtain ⟨G, _, hG⟩ := C33_generator
  obtain ⟨l1, l2, l3, l4, l5⟩ := gen_sub_x
  have hlp := order_lt_prime
  have h3 := three_lt_order
  obtain ⟨sk, hsk⟩ := feltOf_exists (n := 1) (by omega)
  obtain ⟨z, hz⟩ := feltOf_exists (n := 0) (by omega)
  obtain ⟨pk, x, y, g1, g2, g3⟩ := C34_public_key hG hsk (by omega) (by omega)
  rw [one_nsmul] at g3
  have hx1 : x = gX := cast_inj g2.below (show gX < Kind.felt.prime by omega) (g3.unique hG).1
  rw [hx1] at g2
  obtain ⟨ca, a1, a2, a3⟩ := scalarOfFelt_some hsk (by omega)
  obtain ⟨cm, b1, b2, b3⟩ := scalarOfFelt_some hz (by omega)
  obtain ⟨x', y', d1, dp, d2, d3⟩ := signNonce_spec hG a2 b2 a2 (by omega)
  rw [a3, one_nsmul] at d1
  have hx : x' = gX := cast_inj dp (show gX < Kind.felt.prime by omega) (d1.unique hG).1
  rw [hx] at d3
  obtain ⟨fr, fs, s, f1, f2, f3, f4, f5⟩ := d3 l4
  rw [a3, b3, Nat.mul_one, Nat.mul_one, Nat.zero_add, Nat.mod_eq_of_lt f4, Nat.mod_eq_of_lt l5] at f5
  rw [f5] at f3
  refine ⟨sk, z, pk, fr, fs, hsk, hz, g1, g2, ?_, f2, f3, by decide +kernel, l3, l4, l3, l4⟩
  unfold ecdsaSignK
  rw [a1, Option.elim_some, b1, Option.elim_some, Option.elim_some]
  exact f1

example : ∃ sk z k pk fr fs : Bytes, ∃ a m c n t, FeltOf sk a ∧ 0 < a ∧ FeltOf z m ∧ FeltOf k c ∧
    ecdsaSignK sk z k = some (.ok (fr, fs)) ∧ getPk sk = some (some pk) ∧ FeltOf fr n ∧ FeltOf fs t ∧ SigBounds m n t ∧
    ecdsaVerifyPartial pk z fr fs = some (.ok ()) := by
  obtain ⟨sk, z, pk, fr, fs, h1, h2, h3, _, h4, h5, h6, h7⟩ := sign_one
  exact ⟨sk, z, sk, pk, fr, fs, 1, 0, 1, gX, gX, h1, by decide, h2, h1, h4, h3, h5, h6, h7,
    C34_verifies_partial h1 (by decide) h2 h1 h4 h3 h5 h6 h7⟩

example : ∃ p P, AffPoint.Repr p P ∧ p.infinity = false := by
  obtain ⟨G, _, hG⟩ := C33_generator
  have h1 : (1 : Nat) < Kind.scalar.prime := by have := three_lt_order; exact Nat.lt_of_le_of_lt (by decide) this
  obtain ⟨e, h2, h3⟩ := C29_surjective h1
  obtain ⟨p, _, hp, hi⟩ := genMultiply_affine h2 hG (by rw [h3]; decide)
  exact ⟨p, _, hp, hi⟩

end

end Verif.Crypto
