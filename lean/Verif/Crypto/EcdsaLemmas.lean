import Verif.Crypto.Order
import Verif.Crypto.Ecdsa
import Verif.Crypto.EcdsaSpec
/-! # Lemmas for ECDSA: comparisons, conversions between the element types, the pieces of signing and verification -/
namespace Verif.Crypto

theorem curveOrder_spec : Elem .felt curveOrder ∧ value .felt curveOrder = sigOrder := by
  obtain ⟨h1, h2⟩ := C29_from_bytes (k := .felt) (x := ⟨0x1e66a241adc64d2f, 0xb781126dcae7b232, 0xffffffffffffffff, 0x800000000000010⟩)
    ⟨by decide, by decide, by decide, by decide⟩
  exact ⟨h1, h2.trans (by decide +kernel)⟩

theorem upperBound_spec : Elem .felt upperBound ∧ value .felt upperBound = 2 ^ 251 :=
  ⟨⟨⟨by decide, by decide, by decide, by decide⟩, by decide +kernel⟩, by decide +kernel⟩

theorem order_lt_prime : sigOrder < Kind.felt.prime := by decide +kernel
theorem bound_lt_order : 2 ^ 251 < sigOrder := by decide +kernel

theorem feltLt_iff {a b : Limbs} (ha : Elem .felt a) (hb : Elem .felt b) : feltLt a b = true ↔ value .felt a < value .felt b := by
  unfold feltLt
  rw [decide_eq_true_iff, show fieldMod = Kind.felt.modulus from rfl, C29_cmp ha hb, Nat.compare_eq_lt]

theorem feltLt_bound {a : Limbs} (ha : Elem .felt a) : feltLt a upperBound = true ↔ value .felt a < 2 ^ 251 := by
  rw [feltLt_iff ha upperBound_spec.1, upperBound_spec.2]

theorem feltLt_order {a : Limbs} (ha : Elem .felt a) : feltLt a curveOrder = true ↔ value .felt a < sigOrder := by
  rw [feltLt_iff ha curveOrder_spec.1, curveOrder_spec.2]

theorem scalarOfMont_some {v : Limbs} (h : Elem .felt v) (hv : value .felt v < sigOrder) :
    ∃ c, scalarOfMont v = some c ∧ Elem .scalar c ∧ value .scalar c = value .felt v := by
  unfold scalarOfMont
  rw [if_pos ((feltLt_order h).2 hv)]
  obtain ⟨h1, h2, h3⟩ := montToBytes_spec (k := .felt) h.u64
  obtain ⟨h4, h5⟩ := C28_to_mont (k := .scalar) h1 h2
  refine ⟨_, rfl, h4, h5.trans ?_⟩
  exact (congrArg (· % Kind.scalar.prime) h3).trans (Nat.mod_eq_of_lt hv)

theorem scalarOfMont_none {v : Limbs} (h : Elem .felt v) (hv : sigOrder ≤ value .felt v) : scalarOfMont v = none := by
  unfold scalarOfMont
  rw [if_neg (fun hc => absurd ((feltLt_order h).1 hc) (by omega))]

theorem scalarOfFelt_some {f : Bytes} {n : Nat} (h : FeltOf f n) (hn : n < sigOrder) :
    ∃ c, scalarOfFelt f = some c ∧ Elem .scalar c ∧ value .scalar c = n := by
  obtain ⟨h1, h2⟩ := C28_mont_felt h
  unfold scalarOfFelt
  rw [if_pos ((feltLt_order h1).2 (h2 ▸ hn))]
  obtain ⟨h4, h5⟩ := C28_to_mont (k := .scalar) h.length h.bytes
  refine ⟨_, rfl, h4, h5.trans ?_⟩
  rw [h.value]; exact Nat.mod_eq_of_lt hn

theorem scalarOfFelt_none {f : Bytes} {n : Nat} (h : FeltOf f n) (hn : sigOrder ≤ n) : scalarOfFelt f = none := by
  obtain ⟨h1, h2⟩ := C28_mont_felt h
  unfold scalarOfFelt
  rw [if_neg (fun hc => absurd ((feltLt_order h1).1 hc) (by omega))]

section
attribute [local irreducible] ProjPoint.addAffine addPoints AffPoint.ofProj ProjPoint.genMultiplyElm

/-- Multiples of the generator in affine form. -/
theorem genMultiply_affine {e : Limbs} {G : StarkPoint} (he : Elem .scalar e) (hG : IsGenerator G) (h0 : value .scalar e ≠ 0) :
    ∃ p, AffPoint.genMultiplyElm e = some p ∧ p.Repr (value .scalar e • G) ∧ p.infinity = false := by
  obtain ⟨q, h1, h2⟩ := C33_gen_multiply_elm he hG
  have hi : q.infinity = false := by
    cases hi : q.infinity
    · rfl
    · have := (smul_eq_zero_iff hG _).1 (h2.zero hi)
      exact absurd (Nat.le_of_dvd (by omega) this) (by have := C29_value_lt he; omega)
  obtain ⟨p, h3, h4, h5⟩ := AffPoint.ofProj_repr h2 hi
  refine ⟨p, ?_, h4, h5⟩
  unfold AffPoint.genMultiplyElm
  rw [h1, Option.bind_some, h3]

/-- No scalar leads to a panic. -/
theorem genMultiply_any {e : Limbs} (he : Elem .scalar e) :
    ∃ p, AffPoint.genMultiplyElm e = some p ∧ p.Valid := by
  obtain ⟨G, _, hG⟩ := C33_generator
  obtain ⟨q, h1, h2⟩ := C33_gen_multiply_elm he hG
  obtain ⟨p, h3, h4, _⟩ := AffPoint.ofProj_num h2.1
  refine ⟨p, ?_, h4⟩
  unfold AffPoint.genMultiplyElm
  rw [h1, Option.bind_some, h3]

end

section
attribute [local irreducible] mul add AffPoint.genMultiplyElm scalarOfMont inverse feltOfMont feltLt montReduce toNative

/-- Signing from the nonce on: the nonce point, and the two numbers of the signature. -/
theorem signNonce_spec {sk z k : Limbs} {G : StarkPoint} (hG : IsGenerator G) (hsk : Elem .scalar sk) (hz : Elem .scalar z)
    (hk : Elem .scalar k) (h0 : value .scalar k ≠ 0) :
    ∃ x y, HasCoords (value .scalar k • G) ((x : Nat) : Spec.F) y ∧ x < Kind.felt.prime ∧
      (2 ^ 251 ≤ x → signNonce sk z k = some (.error .randomness)) ∧
      (x < 2 ^ 251 → ∃ fr fs s, signNonce sk z k = some (.ok (fr, fs)) ∧ FeltOf fr x ∧ FeltOf fs s ∧ s < sigOrder ∧
        s * value .scalar k % sigOrder = (value .scalar z + x * value .scalar sk) % sigOrder) := by
  obtain ⟨p, h1, h2, h3⟩ := genMultiply_affine hk hG h0
  have hc := h2.coords h3
  refine ⟨value .felt p.x, num p.y, hc, C29_value_lt h2.1.x, ?_, ?_⟩
  all_goals
    intro hx
    have hkz : k ≠ zero := by
      rintro rfl
      exact h0 (C29_zero .scalar).2
    unfold signNonce
    rw [if_neg hkz, h1, Option.bind_some]
  · have : feltLt p.x upperBound = false := by
      rw [← Bool.not_eq_true, feltLt_bound h2.1.x]; omega
    simp only [this]
    rfl
  · have : feltLt p.x upperBound = true := (feltLt_bound h2.1.x).2 hx
    simp only [this]
    obtain ⟨r, e1, e2, e3⟩ := scalarOfMont_some h2.1.x (lt_trans hx bound_lt_order)
    obtain ⟨kinv, e4, e5, e6, _⟩ := C30_inverse hk h0
    obtain ⟨m1, m2⟩ := C29_mul e2 hsk
    obtain ⟨a1, a2⟩ := C29_add hz m1
    obtain ⟨s1, s2⟩ := C29_mul e5 a1
    obtain ⟨fr, f1, f2⟩ := C28_of_mont e2
    obtain ⟨fs, g1, g2⟩ := C28_of_mont s1
    rw [e3] at f2
    refine ⟨fr, fs, _, ?_, f2, g2, C29_value_lt s1, ?_⟩
    · have e4' : (inverse orderMod k).join = some kinv := by
        rw [show inverse orderMod k = some (some kinv) from e4]; rfl
      have f1' : feltOfMont orderMod r = some fr := f1
      have g1' : feltOfMont orderMod (mul orderMod kinv (add orderMod z (mul orderMod r sk))) = some fs := g1
      rw [Bool.not_true, if_neg Bool.false_ne_true, e1, Option.bind_some, e4', Option.bind_some, f1', Option.bind_some, g1',
        Option.map_some]
    · rw [s2, a2, m2, e3]
      have key : ∀ N K I A : Nat, K * I % N = 1 → (I * (A % N)) % N * K % N = A % N := by
        intro N K I A h
        have h1 : (I * (A % N)) % N * K ≡ I * A * K [MOD N] :=
          ((Nat.mod_modEq _ _).trans ((Nat.ModEq.refl I).mul (Nat.mod_modEq _ _))).mul_right K
        have h2 : I * A * K ≡ A [MOD N] := by
          have h3 : K * I ≡ 1 [MOD N] := by
            unfold Nat.ModEq; rw [h]
            rcases N with _ | _ | N
            · simp at h ⊢
            · simp [Nat.mod_one] at h
            · rw [Nat.mod_eq_of_lt (by omega)]
          calc I * A * K = A * (K * I) := by ring
            _ ≡ A * 1 [MOD N] := h3.mul_left A
            _ = A := by ring
        exact h1.trans h2
      have h5 := key sigOrder (value .scalar k) (value .scalar kinv)
        (value .scalar z + value .felt p.x * value .scalar sk) e6
      have h6 : (value .scalar z + value .felt p.x * value .scalar sk % sigOrder) % sigOrder =
          (value .scalar z + value .felt p.x * value .scalar sk) % sigOrder := by rw [Nat.add_mod_mod]
      rw [show Kind.scalar.prime = sigOrder from rfl, h6]
      exact h5

end

section
attribute [local irreducible] mul add sub square double

/-- An addition that yields the point at infinity from finite points keeps the coordinates of the first. -/
theorem ProjPoint.add_stale {p o : ProjPoint} {P Q : StarkPoint} (h : p.Repr P) (h' : o.Repr Q) (h0 : P + Q = 0) (hP : P ≠ 0) :
    (p.add o).x = p.x ∧ (p.add o).z = p.z := by
  have hr := ProjPoint.add_repr h h'
  have hi : (p.add o).infinity = true := by
    cases hi : (p.add o).infinity
    · exact absurd h0 (hr.coords hi).ne_zero
    · rfl
  have hp : p.infinity = false := by
    cases hp : p.infinity
    · rfl
    · exact absurd (h.zero hp) hP
  have ho : o.infinity = false := by
    cases ho : o.infinity
    · rfl
    · rw [h'.zero ho, add_zero] at h0; exact absurd h0 hP
  clear hr
  unfold ProjPoint.add at hi ⊢
  rw [ho, hp, if_neg Bool.false_ne_true, if_neg Bool.false_ne_true] at hi
  rw [ho, hp, if_neg Bool.false_ne_true, if_neg Bool.false_ne_true]
  simp only at hi ⊢
  by_cases hu : Verif.Crypto.mul fieldMod p.x o.z = Verif.Crypto.mul fieldMod o.x p.z
  · rw [if_pos hu] at hi ⊢
    by_cases ht : Verif.Crypto.mul fieldMod p.y o.z = Verif.Crypto.mul fieldMod o.y p.z
    · rw [if_neg (not_not_intro ht)] at hi
      unfold ProjPoint.double at hi
      rw [hp, if_neg Bool.false_ne_true] at hi
      exact absurd hi Bool.false_ne_true
    · rw [if_pos ht]
      exact ⟨rfl, rfl⟩
  · rw [if_neg hu] at hi
    exact absurd hi Bool.false_ne_true

end

section
attribute [local irreducible] mul add AffPoint.ofProj ProjPoint.multiplyElm ProjPoint.add ProjPoint.negate

/-- The comparison of the first coordinates of the two candidates. -/
theorem verifyPoints_spec {pk : ProjPoint} {u1 u2 fr : Limbs} {G Q : StarkPoint} (hG : IsGenerator G) (hpk : pk.Repr Q)
    (h1 : Elem .scalar u1) (h2 : Elem .scalar u2) (hr : Elem .felt fr) :
    ∃ res, verifyPoints pk u1 u2 fr = some res ∧ (res = .ok () ∨ res = .error .signature) ∧
      ((∃ y, HasCoords (value .scalar u1 • G + value .scalar u2 • Q) (num fr) y ∨
          HasCoords (value .scalar u1 • G - value .scalar u2 • Q) (num fr) y) → res = .ok ()) ∧
      ((value .scalar u1 • G + value .scalar u2 • Q = 0 ∨ value .scalar u1 • G - value .scalar u2 • Q = 0) →
        (∃ y, HasCoords (value .scalar u1 • G) (num fr) y) → res = .ok ()) ∧
      (res = .ok () → (∃ y, HasCoords (value .scalar u1 • G + value .scalar u2 • Q) (num fr) y ∨
          HasCoords (value .scalar u1 • G - value .scalar u2 • Q) (num fr) y) ∨
        (value .scalar u1 • G + value .scalar u2 • Q = 0 ∨ value .scalar u1 • G - value .scalar u2 • Q = 0) ∧
        (value .scalar u1 • G = 0 ∨ ∃ y, HasCoords (value .scalar u1 • G) (num fr) y)) := by
  obtain ⟨G', hg, hc⟩ := C33_generator
  obtain rfl : G' = G := hc.inj hG
  have m1 := C33_proj_multiply_elm hg h1
  have m2 := C33_proj_multiply_elm hpk h2
  have m3 := C33_proj_negate m2
  have a1 := C33_proj_add m1 m2
  have a2 := C33_proj_add m1 m3
  have key : ∀ {p o : ProjPoint} {A B : StarkPoint}, p.Repr A → o.Repr B → (p.add o).Repr (A + B) →
      ∃ q, AffPoint.ofProj (p.add o) = some q ∧
      ((∃ y, HasCoords (A + B) (num fr) y) → q.x = fr) ∧ (A + B = 0 → (∃ y, HasCoords A (num fr) y) → q.x = fr) ∧
      (q.x = fr → (∃ y, HasCoords (A + B) (num fr) y) ∨ A + B = 0 ∧ (A = 0 ∨ ∃ y, HasCoords A (num fr) y)) := by
    intro p o A B hp ho hadd
    obtain ⟨q, e1, e2, _, e3, _⟩ := AffPoint.ofProj_num hadd.1
    have stale := fun (h0 : A + B = 0) (hA : A ≠ 0) => ProjPoint.add_stale hp ho h0 hA
    generalize p.add o = po at *
    have fin : ∀ {p : ProjPoint} {A : StarkPoint}, p.Repr A → A ≠ 0 → HasCoords A (num p.x / num p.z) (num p.y / num p.z) := by
      intro p A hp hA
      refine hp.coords ?_
      cases hi : p.infinity
      · rfl
      · exact absurd (hp.zero hi) hA
    refine ⟨q, e1, ?_, ?_, ?_⟩
    · rintro ⟨y, hy⟩
      exact (num_inj e2.x hr).1 (e3.trans ((fin hadd hy.ne_zero).unique hy).1)
    · rintro h0 ⟨y, hy⟩
      obtain ⟨s1, s2⟩ := stale h0 hy.ne_zero
      rw [s1, s2] at e3
      exact (num_inj e2.x hr).1 (e3.trans ((fin hp hy.ne_zero).unique hy).1)
    · intro he
      by_cases h0 : A + B = 0
      · refine .inr ⟨h0, ?_⟩
        by_cases hA : A = 0
        · exact .inl hA
        · right
          obtain ⟨s1, s2⟩ := stale h0 hA
          have := fin hp hA
          rw [s1, s2] at e3
          rw [← e3, he] at this
          exact ⟨_, this⟩
      · left
        have := fin hadd h0
        rw [← e3, he] at this
        exact ⟨_, this⟩
  obtain ⟨r1, b1, b2, b2', b3⟩ := key m1 m2 a1
  obtain ⟨r2, c1, c2, c2', c3⟩ := key m1 m3 a2
  rw [← sub_eq_add_neg] at c2 c2' c3
  unfold verifyPoints
  rw [b1, Option.bind_some, c1, Option.map_some]
  refine ⟨_, rfl, ?_⟩
  by_cases hcond : r1.x = fr ∨ r2.x = fr
  · rw [if_pos hcond]
    refine ⟨.inl rfl, fun _ => rfl, fun _ _ => rfl, fun _ => ?_⟩
    rcases hcond with h | h
    · rcases b3 h with ⟨y, hy⟩ | ⟨h, hs⟩
      · exact .inl ⟨y, .inl hy⟩
      · exact .inr ⟨.inl h, hs⟩
    · rcases c3 h with ⟨y, hy⟩ | ⟨h, hs⟩
      · exact .inl ⟨y, .inr hy⟩
      · exact .inr ⟨.inr h, hs⟩
  · rw [if_neg hcond]
    refine ⟨.inr rfl, ?_, ?_, nofun⟩
    · rintro ⟨y, hy | hy⟩
      · exact absurd (.inl (b2 ⟨y, hy⟩)) hcond
      · exact absurd (.inr (c2 ⟨y, hy⟩)) hcond
    · rintro (h | h) hy
      · exact absurd (.inl (b2' h hy)) hcond
      · exact absurd (.inr (c2' h hy)) hcond

end

section
attribute [local irreducible] mul add inverse feltLt montFromBytes scalarOfMont verifyPoints montReduce toNative

/-- Verification panics exactly if one of the numbers is not below the curve order. -/
theorem verifyInner_panic {pk : ProjPoint} {z r s : Bytes} {m n k : Nat} (hz : FeltOf z m) (hr : FeltOf r n) (hs : FeltOf s k)
    (h : sigOrder ≤ m ∨ sigOrder ≤ n ∨ sigOrder ≤ k) : verifyInner pk z r s = none := by
  obtain ⟨z1, z2⟩ := C28_mont_felt hz
  obtain ⟨r1, r2⟩ := C28_mont_felt hr
  obtain ⟨s1, s2⟩ := C28_mont_felt hs
  unfold verifyInner
  simp only
  by_cases hm : m < sigOrder
  · obtain ⟨cz, e1, _⟩ := scalarOfMont_some z1 (z2.symm ▸ hm)
    rw [e1, Option.bind_some]
    by_cases hn : n < sigOrder
    · obtain ⟨cr, e2, _⟩ := scalarOfMont_some r1 (r2.symm ▸ hn)
      rw [e2, Option.bind_some, scalarOfMont_none s1 (by rw [s2]; omega), Option.bind_none]
    · rw [scalarOfMont_none r1 (by rw [r2]; omega), Option.bind_none]
  · rw [scalarOfMont_none z1 (by rw [z2]; omega), Option.bind_none]

theorem verifyInner_spec {pk : ProjPoint} {z r s : Bytes} {m n k : Nat} {G Q : StarkPoint} (hG : IsGenerator G) (hpk : pk.Repr Q)
    (hz : FeltOf z m) (hr : FeltOf r n) (hs : FeltOf s k) (hm : m < sigOrder) (hn : n < sigOrder) (hk : k < sigOrder) :
    ∃ res, verifyInner pk z r s = some res ∧ (res = .ok () → SigBounds m n k) ∧ (SigBounds m n k → ∃ w, k * w % sigOrder = 1 ∧
      w < sigOrder ∧
      ((∃ y, HasCoords ((m * w % sigOrder) • G + (n * w % sigOrder) • Q) (n : Spec.F) y ∨
          HasCoords ((m * w % sigOrder) • G - (n * w % sigOrder) • Q) (n : Spec.F) y) → res = .ok ()) ∧
      (((m * w % sigOrder) • G + (n * w % sigOrder) • Q = 0 ∨ (m * w % sigOrder) • G - (n * w % sigOrder) • Q = 0) →
        (∃ y, HasCoords ((m * w % sigOrder) • G) (n : Spec.F) y) → res = .ok ()) ∧
      (res = .ok () → (∃ y, HasCoords ((m * w % sigOrder) • G + (n * w % sigOrder) • Q) (n : Spec.F) y ∨
          HasCoords ((m * w % sigOrder) • G - (n * w % sigOrder) • Q) (n : Spec.F) y) ∨
        ((m * w % sigOrder) • G + (n * w % sigOrder) • Q = 0 ∨ (m * w % sigOrder) • G - (n * w % sigOrder) • Q = 0) ∧
        ((m * w % sigOrder) • G = 0 ∨ ∃ y, HasCoords ((m * w % sigOrder) • G) (n : Spec.F) y))) := by
  obtain ⟨z1, z2⟩ := C28_mont_felt hz
  obtain ⟨r1, r2⟩ := C28_mont_felt hr
  obtain ⟨s1, s2⟩ := C28_mont_felt hs
  obtain ⟨cz, a1, a2, a3⟩ := scalarOfMont_some z1 (z2.symm ▸ hm)
  obtain ⟨cr, b1, b2, b3⟩ := scalarOfMont_some r1 (r2.symm ▸ hn)
  obtain ⟨cs, c1, c2, c3⟩ := scalarOfMont_some s1 (s2.symm ▸ hk)
  rw [z2] at a3
  rw [r2] at b3
  rw [s2] at c3
  unfold verifyInner
  simp only
  rw [a1, Option.bind_some, b1, Option.bind_some, c1, Option.bind_some]
  have zeroIff : ∀ {x : Limbs} {v : Nat}, Elem .felt x → value .felt x = v → (x = zero ↔ v = 0) := by
    intro x v hx hv
    rw [← C29_value_inj hx (C29_zero .felt).1, (C29_zero .felt).2, hv]
  have ltIff : ∀ {x : Limbs} {v : Nat}, Elem .felt x → value .felt x = v → ((!feltLt x upperBound) = true ↔ ¬ v < 2 ^ 251) := by
    intro x v hx hv
    rw [Bool.not_eq_true', ← Bool.not_eq_true, feltLt_bound hx, hv]
  by_cases d1 : m < 2 ^ 251
  case neg =>
    rw [if_pos ((ltIff z1 z2).2 d1)]
    exact ⟨_, rfl, nofun, fun h => absurd h.1 d1⟩
  rw [if_neg (fun h => (ltIff z1 z2).1 h d1)]
  by_cases d2 : n = 0 ∨ ¬ n < 2 ^ 251
  · rw [if_pos (d2.imp (zeroIff r1 r2).2 (ltIff r1 r2).2)]
    refine ⟨_, rfl, nofun, fun h => ?_⟩
    have := h.2.1
    have := h.2.2.1
    omega
  rw [if_neg (fun h => d2 (h.imp (zeroIff r1 r2).1 (ltIff r1 r2).1))]
  by_cases d3 : k = 0 ∨ ¬ k < 2 ^ 251
  · rw [if_pos (d3.imp (zeroIff s1 s2).2 (ltIff s1 s2).2)]
    refine ⟨_, rfl, nofun, fun h => ?_⟩
    have := h.2.2.2.1
    have := h.2.2.2.2
    omega
  rw [if_neg (fun h => d3 (h.imp (zeroIff s1 s2).1 (ltIff s1 s2).1))]
  obtain ⟨inv, i1, i2, i3, _⟩ := C30_inverse c2 (by rw [c3]; omega)
  have i1' : (inverse orderMod cs).join = some inv := by
    rw [show inverse orderMod cs = some (some inv) from i1]; rfl
  rw [i1', Option.bind_some]
  obtain ⟨m1, m2⟩ := C29_mul a2 i2
  obtain ⟨n1, n2⟩ := C29_mul b2 i2
  obtain ⟨res, f1, _, f3, f5, f4⟩ := verifyPoints_spec hG hpk m1 n1 r1
  rw [c3] at i3
  have hnum : num (montFromBytes fieldMod r) = (n : Spec.F) := by unfold num; rw [r2]
  rw [m2, n2, a3, b3, hnum] at f3 f4 f5
  refine ⟨res, f1, fun _ => ⟨d1, by omega, by omega, by omega, by omega⟩, fun _ => ⟨value .scalar inv, i3, C29_value_lt i2, f3, f5, f4⟩⟩

end

end Verif.Crypto
