import Mathlib.FieldTheory.Finite.Basic
import Verif.Crypto.LimbLemmas
import Verif.Crypto.Primes
/-! The limb arithmetic as arithmetic in the prime field. -/
namespace Verif.Crypto

theorem fieldMod_nat : fieldMod.P.nat = 3618502788666131213697322783095070105623107215331596699973092056135872020481 := by
  decide +kernel

theorem orderMod_nat : orderMod.P.nat = 3618502788666131213697322783095070105526743751716087489154079457884512865583 := by
  decide +kernel

instance : Fact (fieldMod.P.nat.Prime) := ⟨fieldMod_nat ▸ prime_P⟩
instance : Fact (orderMod.P.nat.Prime) := ⟨orderMod_nat ▸ prime_N⟩

/-- The prime field of an element type. -/
abbrev Fld (m : Modulus) : Type := ZMod m.P.nat

/-- The field element that reduced limbs stand for: their number divided by `2^256`. -/
def fe (m : Modulus) (x : Limbs) : Fld m := (x.nat : Fld m) * ((W : Fld m) ^ 4)⁻¹

section
variable {m : Modulus}

theorem Canon.add (g : m.Good) {a b : Limbs} (ha : Canon m a) (hb : Canon m b) : Canon m (add m a b) := (add_spec g ha hb).1
theorem Canon.sub (g : m.Good) {a b : Limbs} (ha : Canon m a) (hb : Canon m b) : Canon m (sub m a b) := (sub_spec g ha hb).1
theorem Canon.mul (g : m.Good) {a b : Limbs} (ha : Canon m a) (hb : Canon m b) : Canon m (mul m a b) :=
  (mul_spec g ha.ok hb).1
theorem Canon.square (g : m.Good) {a : Limbs} (ha : Canon m a) : Canon m (square m a) := (square_spec g ha).1
theorem Canon.double (g : m.Good) {a : Limbs} (ha : Canon m a) : Canon m (double m a) := (double_spec g ha).1
theorem Canon.neg (g : m.Good) {a : Limbs} (ha : Canon m a) : Canon m (neg m a) := (neg_spec g ha).1


variable [Fact m.P.nat.Prime]

theorem W_ne (g : m.Good) : (W : Fld m) ^ 4 ≠ 0 := by
  intro h
  have h' : ((W ^ 4 : Nat) : Fld m) = 0 := by rw [Nat.cast_pow]; exact h
  have hd := (ZMod.natCast_eq_zero_iff _ _).1 h'
  have := Nat.eq_one_of_dvd_coprimes (coprime_W g 4) (Nat.dvd_refl _) hd
  have := g.one_lt
  omega

theorem fe_mul_W (g : m.Good) (x : Limbs) : fe m x * (W : Fld m) ^ 4 = (x.nat : Fld m) := by
  unfold fe
  rw [mul_assoc, inv_mul_cancel₀ (W_ne g), mul_one]

theorem fe_eq_of (g : m.Good) {x : Limbs} {y : Fld m} (h : (x.nat : Fld m) = y * (W : Fld m) ^ 4) : fe m x = y := by
  unfold fe; rw [h, mul_assoc, mul_inv_cancel₀ (W_ne g), mul_one]

theorem fe_inj (g : m.Good) {x y : Limbs} (hx : Canon m x) (hy : Canon m y) : fe m x = fe m y ↔ x = y := by
  refine ⟨fun h => ?_, fun h => by rw [h]⟩
  have h1 : (x.nat : Fld m) = (y.nat : Fld m) := by rw [← fe_mul_W g, h, fe_mul_W g]
  have h2 := (ZMod.natCast_eq_natCast_iff' _ _ _).1 h1
  rw [Nat.mod_eq_of_lt hx.lt, Nat.mod_eq_of_lt hy.lt] at h2
  exact Limbs.nat_inj hx.ok hy.ok h2

theorem cast_modEq {a b : Nat} (h : a ≡ b [MOD m.P.nat]) : (a : Fld m) = (b : Fld m) :=
  (ZMod.natCast_eq_natCast_iff _ _ _).2 h

theorem cast_mod (a : Nat) : ((a % m.P.nat : Nat) : Fld m) = (a : Fld m) := cast_modEq (Nat.mod_modEq _ _)

theorem cast_sub_p {b : Nat} (h : b ≤ m.P.nat) : ((m.P.nat - b : Nat) : Fld m) = -(b : Fld m) := by
  rw [Nat.cast_sub h, ZMod.natCast_self, zero_sub]

theorem fe_zero (g : m.Good) : fe m zero = 0 := by
  simp [fe, (zero_canon g).2]

theorem fe_one (g : m.Good) : fe m m.R = 1 := by
  refine fe_eq_of g ?_
  rw [g.r, cast_mod, one_mul, Nat.cast_pow]

theorem fe_add (g : m.Good) {a b : Limbs} (ha : Canon m a) (hb : Canon m b) : fe m (add m a b) = fe m a + fe m b := by
  refine fe_eq_of g ?_
  rw [(add_spec g ha hb).2, cast_mod, Nat.cast_add, add_mul, fe_mul_W g, fe_mul_W g]

theorem fe_double (g : m.Good) {a : Limbs} (ha : Canon m a) : fe m (double m a) = 2 * fe m a := by
  refine fe_eq_of g ?_
  rw [(double_spec g ha).2, cast_mod, Nat.cast_mul, mul_assoc, fe_mul_W g, Nat.cast_ofNat]

theorem nat_sub (g : m.Good) {a b : Limbs} (ha : Canon m a) (hb : Canon m b) :
    ((sub m a b).nat : Fld m) = (a.nat : Fld m) - (b.nat : Fld m) := by
  rw [(sub_spec g ha hb).2, cast_mod, Nat.cast_add, cast_sub_p hb.lt.le, sub_eq_add_neg]

theorem fe_sub (g : m.Good) {a b : Limbs} (ha : Canon m a) (hb : Canon m b) : fe m (sub m a b) = fe m a - fe m b := by
  refine fe_eq_of g ?_
  rw [nat_sub g ha hb, sub_mul, fe_mul_W g, fe_mul_W g]

theorem fe_neg (g : m.Good) {a : Limbs} (ha : Canon m a) : fe m (neg m a) = -fe m a := by
  refine fe_eq_of g ?_
  rw [(neg_spec g ha).2, cast_mod, cast_sub_p ha.lt.le, neg_mul, fe_mul_W g]

theorem fe_mul_raw (g : m.Good) {a b : Limbs} (ha : a.Ok) (hb : Canon m b) : fe m (mul m a b) = fe m a * fe m b := by
  refine fe_eq_of g ?_
  have h := cast_modEq (mul_spec g ha hb).2
  rw [Nat.cast_mul, Nat.cast_mul, Nat.cast_pow] at h
  refine mul_right_cancel₀ (W_ne g) ?_
  rw [h, ← fe_mul_W g a, ← fe_mul_W g b]; ring

theorem fe_mul (g : m.Good) {a b : Limbs} (ha : Canon m a) (hb : Canon m b) : fe m (mul m a b) = fe m a * fe m b :=
  fe_mul_raw g ha.ok hb

theorem fe_square (g : m.Good) {a : Limbs} (ha : Canon m a) : fe m (square m a) = fe m a ^ 2 := by
  refine fe_eq_of g ?_
  have h := cast_modEq (square_spec g ha).2
  rw [Nat.cast_mul, Nat.cast_mul, Nat.cast_pow] at h
  refine mul_right_cancel₀ (W_ne g) ?_
  rw [h, ← fe_mul_W g a]; ring

theorem fe_toNative (g : m.Good) {a : Limbs} (ha : a.Ok) : ((toNative m a).nat : Fld m) = fe m a := by
  have h := cast_modEq (toNative_spec g ha).2
  rw [Nat.cast_mul, Nat.cast_pow] at h
  refine mul_right_cancel₀ (W_ne g) ?_
  rw [h, fe_mul_W g]

theorem fe_fromNative (g : m.Good) {a : Limbs} (ha : a.Ok) : fe m (fromNative m a) = (a.nat : Fld m) := by
  refine fe_eq_of g ?_
  rw [cast_modEq (fromNative_spec g ha).2, Nat.cast_mul, Nat.cast_pow]

theorem isZero_fe (g : m.Good) {a : Limbs} (ha : Canon m a) : isZero a = true ↔ fe m a = 0 := by
  rw [isZero_spec, ← fe_zero g, fe_inj g ha (zero_canon g).1]
  exact ⟨fun h => Limbs.nat_inj ha.ok (zero_canon g).1.ok h, fun h => by rw [h]; rfl⟩

theorem isOne_fe (g : m.Good) {a : Limbs} (ha : Canon m a) : isOne m a = true ↔ fe m a = 1 := by
  rw [isOne_spec g ha.ok, ← fe_one g, fe_inj g ha (R_canon g), ← g.r]
  exact ⟨fun h => Limbs.nat_inj ha.ok g.okR h, fun h => by rw [h]⟩

/-! ## Inversion -/

theorem two_ne (g : m.Good) : (2 : Fld m) ≠ 0 := by
  intro h
  have h' : ((2 : Nat) : Fld m) = 0 := by simpa using h
  have hd := (ZMod.natCast_eq_zero_iff _ _).1 h'
  have := Nat.le_of_dvd (by decide) hd
  have := g.one_lt
  have := odd_nat g
  omega

theorem halve_spec (g : m.Good) {b : Limbs} (hb : Canon m b) :
    Canon m (halve m b) ∧ ((halve m b).nat : Fld m) * 2 = (b.nat : Fld m) := by
  unfold halve
  have h1 := hb.lt
  split
  · next h =>
    have he := isEven_spec.1 h
    obtain ⟨o, e⟩ := div2_spec hb.ok
    refine ⟨⟨o, by omega⟩, ?_⟩
    have : b.nat = (div2 b).nat * 2 := by omega
    conv_rhs => rw [this]
    push_cast; rfl
  · next h =>
    have he := isEven_spec.not.1 (by simpa using h)
    obtain ⟨o, e⟩ := addNoreduce_spec hb.ok g.okP
    have hs := g.small
    rw [Nat.mod_eq_of_lt (by omega)] at e
    obtain ⟨o', e'⟩ := div2_spec o
    have ho := odd_nat g
    refine ⟨⟨o', by omega⟩, ?_⟩
    have : b.nat + m.P.nat = (div2 (addNoreduce b m.P)).nat * 2 := by omega
    have h2 := congrArg (Nat.cast : Nat → Fld m) this
    push_cast [ZMod.natCast_self] at h2
    rw [← h2, add_zero]

/-- What an inner loop does. -/
theorem halveLoop_spec (g : m.Good) (fuel : Nat) {u b : Limbs} (hu : u.Ok) (hpos : 0 < u.nat) (hlt : u.nat < 2 ^ fuel)
    (hb : Canon m b) : ∃ u' b' j, halveLoop m (fuel + 1) u b = some (u', b') ∧ u'.Ok ∧ Canon m b' ∧ u'.nat % 2 = 1 ∧
      u.nat = u'.nat * 2 ^ j ∧ (u.nat % 2 = 0 → 1 ≤ j) ∧ (b'.nat : Fld m) * 2 ^ j = (b.nat : Fld m) := by
  induction fuel generalizing u b with
  | zero => simp at hlt; omega
  | succ f ih =>
    rw [halveLoop]
    split
    · next h =>
      have he := isEven_spec.1 h
      obtain ⟨o, e⟩ := div2_spec hu
      obtain ⟨c, e2⟩ := halve_spec g hb
      obtain ⟨u', b', j, h1, h2, h3, h4, h5, h6, h7⟩ := ih o (by omega) (by rw [pow_succ] at hlt; omega) c
      refine ⟨u', b', j + 1, h1, h2, h3, h4, ?_, fun _ => by omega, ?_⟩
      · rw [pow_succ, ← mul_assoc, ← h5]; omega
      · rw [pow_succ, ← mul_assoc, h7, e2]
    · next h =>
      have he := isEven_spec.not.1 (by simpa using h)
      exact ⟨u, b, 0, rfl, hu, hb, by omega, by simp, fun h => by omega, by simp⟩

theorem rawOne_iff {u : Limbs} (hu : u.Ok) : u = rawOne ↔ u.nat = 1 := by
  constructor
  · rintro rfl; rfl
  · intro h
    exact Limbs.nat_inj hu ⟨by decide, by decide, by decide, by decide⟩ h

/-- The invariant of the outer loop. -/
structure InvOk (m : Modulus) (x : Fld m) (u v b c : Limbs) : Prop where
  okU : u.Ok
  okV : v.Ok
  leU : u.nat ≤ m.P.nat
  leV : v.nat ≤ m.P.nat
  canB : Canon m b
  canC : Canon m c
  cop : Nat.Coprime u.nat v.nat
  eb : (b.nat : Fld m) * x = u.nat * ((W : Fld m) ^ 4) ^ 2
  ec : (c.nat : Fld m) * x = v.nat * ((W : Fld m) ^ 4) ^ 2

theorem pow_two_ne (g : m.Good) (j : Nat) : (2 : Fld m) ^ j ≠ 0 := pow_ne_zero _ (two_ne g)

theorem halved (g : m.Good) {x : Fld m} {b b' : Nat} {u u' j : Nat} (h : (b : Fld m) * x = u * ((W : Fld m) ^ 4) ^ 2)
    (hu : u = u' * 2 ^ j) (hb : (b' : Fld m) * 2 ^ j = (b : Fld m)) : (b' : Fld m) * x = u' * ((W : Fld m) ^ 4) ^ 2 := by
  refine mul_right_cancel₀ (pow_two_ne g j) ?_
  rw [hu] at h
  push_cast at h
  linear_combination h + x * hb

omit [Fact m.P.nat.Prime] in
theorem ok_lt {u : Limbs} (g : m.Good) (h : u.nat ≤ m.P.nat) : u.nat < 2 ^ 255 := by
  have := g.small
  have e : W ^ 4 = 2 * 2 ^ 255 := by norm_num
  omega

theorem le_of_pow {u u' j : Nat} (h : u = u' * 2 ^ j) : u' ≤ u := by
  rw [h]; exact Nat.le_mul_of_pos_right _ (by positivity)

theorem le_of_pow' {u u' j : Nat} (h : u = u' * 2 ^ j) (hj : 1 ≤ j) : 2 * u' ≤ u := by
  obtain ⟨i, rfl⟩ := Nat.exists_eq_add_of_le hj
  rw [h, pow_add, pow_one, ← mul_assoc, Nat.mul_comm 2]
  exact Nat.le_mul_of_pos_right _ (by positivity)

/-- One turn of the outer loop: what is left after the inner loops and the subtraction. -/
theorem inv_turn (g : m.Good) {x : Fld m} {u v b c : Limbs} (h : InvOk m x u v b c) (hu : 0 < u.nat) (hv : 0 < v.nat)
    (fuel : Nat) (h1 : u.nat ≠ 1 ∧ v.nat ≠ 1) : ∃ u' v' b' c', invLoop m (fuel + 1) u v b c = invLoop m fuel u' v' b' c' ∧
      InvOk m x u' v' b' c' ∧ (u'.nat % 2 = 0 ∨ v'.nat % 2 = 0) ∧ u'.nat * v'.nat ≤ u.nat * v.nat ∧
      (u.nat % 2 = 0 ∨ v.nat % 2 = 0 → 2 * (u'.nat * v'.nat) ≤ u.nat * v.nat) ∧ 0 < u'.nat ∧ (v'.nat = 0 → u'.nat = 1) := by
  obtain ⟨u1, b1, j, e1, o1, k1, odd1, d1, p1, q1⟩ := halveLoop_spec g 255 h.okU hu (ok_lt g h.leU) h.canB
  obtain ⟨v1, c1, i, e2, o2, k2, odd2, d2, p2, q2⟩ := halveLoop_spec g 255 h.okV hv (ok_lt g h.leV) h.canC
  have n1 : u ≠ rawOne := fun hh => h1.1 ((rawOne_iff h.okU).1 hh)
  have n2 : v ≠ rawOne := fun hh => h1.2 ((rawOne_iff h.okV).1 hh)
  have l1 := le_of_pow d1
  have l2 := le_of_pow d2
  have eb := halved g h.eb d1 q1
  have ec := halved g h.ec d2 q2
  have cop : Nat.Coprime u1.nat v1.nat :=
    Nat.Coprime.coprime_dvd_left (Dvd.intro _ d1.symm) (Nat.Coprime.coprime_dvd_right (Dvd.intro _ d2.symm) h.cop)
  have prod : u1.nat * v1.nat ≤ u.nat * v.nat := Nat.mul_le_mul l1 l2
  have prod2 : u.nat % 2 = 0 ∨ v.nat % 2 = 0 → 2 * (u1.nat * v1.nat) ≤ u.nat * v.nat := by
    rintro (hh | hh)
    · rw [← mul_assoc]; exact Nat.mul_le_mul (le_of_pow' d1 (p1 hh)) l2
    · rw [Nat.mul_left_comm]; exact Nat.mul_le_mul l1 (le_of_pow' d2 (p2 hh))
  have he : invLoop m (fuel + 1) u v b c = if lt v1 u1 then invLoop m fuel (subNoreduce u1 v1) v1 (sub m b1 c1) c1
      else invLoop m fuel u1 (subNoreduce v1 u1) b1 (sub m c1 b1) := by
    rw [invLoop, if_pos ⟨n1, n2⟩, e1, e2]
  rw [he]
  have lu := h.leU
  have lv := h.leV
  split
  · next hlt =>
    have hlt := (lt_spec o2 o1).1 hlt
    obtain ⟨o3, e3⟩ := subNoreduce_spec o1 o2 hlt.le
    have ms : (u1.nat - v1.nat) * v1.nat ≤ u1.nat * v1.nat := Nat.mul_le_mul_right _ (Nat.sub_le _ _)
    refine ⟨_, _, _, _, rfl, ⟨o3, o2, by omega, by omega, k1.sub g k2, k2, ?_, ?_, ec⟩, .inl (by omega), ?_, ?_, by omega,
      fun h0 => by omega⟩
    · rw [e3]; exact (Nat.coprime_sub_self_left hlt.le).2 cop
    · rw [nat_sub g k1 k2, e3, Nat.cast_sub hlt.le]; linear_combination eb - ec
    · rw [e3]; omega
    · intro hh; have := prod2 hh; rw [e3]; omega
  · next hlt =>
    have hle := (lt_spec o2 o1).not.1 (by simpa using hlt)
    have hle : u1.nat ≤ v1.nat := by omega
    obtain ⟨o3, e3⟩ := subNoreduce_spec o2 o1 hle
    have ms : u1.nat * (v1.nat - u1.nat) ≤ u1.nat * v1.nat := Nat.mul_le_mul_left _ (Nat.sub_le _ _)
    refine ⟨_, _, _, _, rfl, ⟨o1, o3, by omega, by omega, k1, k2.sub g k1, ?_, eb, ?_⟩, .inr (by omega), ?_, ?_, by omega, ?_⟩
    · rw [e3]; exact (Nat.coprime_sub_self_right hle).2 cop
    · rw [nat_sub g k2 k1, e3, Nat.cast_sub hle]; linear_combination ec - eb
    · rw [e3]; omega
    · intro hh; have := prod2 hh; rw [e3]; omega
    · intro h0
      have : v1.nat = u1.nat := by omega
      rw [this] at cop
      exact (Nat.coprime_self _).1 cop

omit [Fact m.P.nat.Prime] in
theorem invLoop_stop {u v b c : Limbs} {fuel : Nat} (hu : u.Ok) (hv : v.Ok) (h : u.nat = 1 ∨ v.nat = 1) :
    invLoop m (fuel + 1) u v b c = some (if u = rawOne then b else c) := by
  rw [invLoop, if_neg]
  rintro ⟨h1, h2⟩
  rcases h with h | h
  · exact h1 ((rawOne_iff hu).2 h)
  · exact h2 ((rawOne_iff hv).2 h)

theorem inv_end {x : Fld m} {u v b c : Limbs} (h : InvOk m x u v b c) (h1 : u.nat = 1 ∨ v.nat = 1) :
    Canon m (if u = rawOne then b else c) ∧
      (((if u = rawOne then b else c).nat : Nat) : Fld m) * x = ((W : Fld m) ^ 4) ^ 2 := by
  split
  · next hu =>
    refine ⟨h.canB, ?_⟩
    rw [h.eb, (rawOne_iff h.okU).1 hu]; simp
  · next hu =>
    have : v.nat = 1 := h1.resolve_left (fun h2 => hu ((rawOne_iff h.okU).2 h2))
    refine ⟨h.canC, ?_⟩
    rw [h.ec, this]; simp

theorem invLoop_spec (g : m.Good) {x : Fld m} (fuel : Nat) {u v b c : Limbs} (h : InvOk m x u v b c) (hu : 0 < u.nat)
    (hv : v.nat = 0 → u.nat = 1) (hev : u.nat % 2 = 0 ∨ v.nat % 2 = 0) (hf : u.nat * v.nat < 2 ^ fuel) :
    ∃ r, invLoop m (fuel + 1) u v b c = some r ∧ Canon m r ∧ (r.nat : Fld m) * x = ((W : Fld m) ^ 4) ^ 2 := by
  induction fuel generalizing u v b c with
  | zero =>
    have : u.nat * v.nat = 0 := by simpa using hf
    have hv0 : v.nat = 0 := by
      rcases Nat.mul_eq_zero.1 this with h | h
      · omega
      · exact h
    obtain ⟨a, b⟩ := inv_end h (.inl (hv hv0))
    exact ⟨_, invLoop_stop h.okU h.okV (.inl (hv hv0)), a, b⟩
  | succ f ih =>
    by_cases h1 : u.nat = 1 ∨ v.nat = 1
    · obtain ⟨a, b⟩ := inv_end h h1
      exact ⟨_, invLoop_stop h.okU h.okV h1, a, b⟩
    · have hv0 : 0 < v.nat := by
        by_contra hc
        have := hv (by omega)
        omega
      obtain ⟨u', v', b', c', e, i, ev, _, pr, pu, pv⟩ := inv_turn g h hu hv0 (f + 1) (by omega)
      rw [e]
      refine ih i pu pv ev ?_
      have := pr hev
      rw [pow_succ] at hf
      omega

theorem inverse_spec (g : m.Good) {a : Limbs} (ha : Canon m a) (h0 : fe m a ≠ 0) :
    ∃ r, inverse m a = some (some r) ∧ Canon m r ∧ fe m a * fe m r = 1 := by
  have hz : isZero a = false := by
    rw [Bool.eq_false_iff]; exact fun h => h0 ((isZero_fe g ha).1 h)
  have hpos : 0 < a.nat := by
    have := isZero_spec.not.1 (by simpa using hz)
    omega
  have hp : Nat.Coprime a.nat m.P.nat :=
    Nat.Coprime.symm ((Nat.Prime.coprime_iff_not_dvd Fact.out).2 (fun hd => by
      have := Nat.le_of_dvd hpos hd; have := ha.lt; omega))
  have i0 : InvOk m (a.nat : Fld m) a m.P m.R2 zero := by
    refine ⟨ha.ok, g.okP, ha.lt.le, Nat.le_refl _, R2_canon g, (zero_canon g).1, hp, ?_, ?_⟩
    · rw [g.r2, cast_mod, Nat.cast_pow]; ring
    · rw [(zero_canon g).2, ZMod.natCast_self]; simp
  have key : ∃ r, invLoop m 512 a m.P m.R2 zero = some r ∧ Canon m r ∧
      (r.nat : Fld m) * (a.nat : Fld m) = ((W : Fld m) ^ 4) ^ 2 := by
    by_cases h1 : a.nat = 1 ∨ m.P.nat = 1
    · obtain ⟨x, y⟩ := inv_end i0 h1
      exact ⟨_, invLoop_stop i0.okU i0.okV h1, x, y⟩
    · obtain ⟨u', v', b', c', e, i, ev, pr, _, pu, pv⟩ := inv_turn g i0 hpos (by have := g.one_lt; omega) 511 (by omega)
      rw [e]
      refine invLoop_spec g 510 i pu pv ev (lt_of_le_of_lt pr ?_)
      have h2 : a.nat * m.P.nat < 2 ^ 255 * 2 ^ 255 :=
        Nat.mul_lt_mul'' (ok_lt g ha.lt.le) (ok_lt g (Nat.le_refl _))
      calc _ < 2 ^ 255 * 2 ^ 255 := h2
        _ = 2 ^ 510 := by rw [← pow_add]
  obtain ⟨r, e, c, h⟩ := key
  refine ⟨r, by rw [inverse, hz, e]; rfl, c, ?_⟩
  refine mul_right_cancel₀ (pow_ne_zero 2 (W_ne g)) ?_
  rw [← fe_mul_W g a, ← fe_mul_W g r] at h
  linear_combination h

theorem inverse_zero (g : m.Good) {a : Limbs} (ha : Canon m a) (h0 : fe m a = 0) : inverse m a = some none := by
  rw [inverse, (isZero_fe g ha).2 h0]; rfl

end
end Verif.Crypto
