import Verif.Crypto.TableCheck
/-! # Soundness of the checks of tables, and the loops over tables -/
namespace Verif.Crypto

/-- The pair is the Montgomery representation of the coordinates of `P`. -/
structure MontPt (P : StarkPoint) (q : Nat × Nat) : Prop where
  x : q.1 < pN
  y : q.2 < pN
  coords : ∃ x y, HasCoords P x y ∧ x * (mR : Nat) = (q.1 : Spec.F) ∧ y * (mR : Nat) = (q.2 : Spec.F)

theorem mRp_cast : ((mRp : Nat) : Spec.F) = ((mR : Nat) : Spec.F) := by
  rw [← castMod mR]; exact congrArg _ (by decide +kernel)

theorem mR_ne : ((mR : Nat) : Spec.F) ≠ 0 := by
  intro h
  have hd := (ZMod.natCast_eq_zero_iff _ _).1 h
  rw [pN_eq] at hd
  exact absurd hd (by decide +kernel)

theorem cast_eq_of_mod {a b : Nat} (h : a % pN = b % pN) : (a : Spec.F) = (b : Spec.F) := by
  rw [← castMod a, h, castMod]

theorem cast_inj {a b : Nat} (ha : a < pN) (hb : b < pN) (h : (a : Spec.F) = (b : Spec.F)) : a = b := by
  have := (ZMod.natCast_eq_natCast_iff' _ _ _).1 h
  rwa [pN_eq, Nat.mod_eq_of_lt ha, Nat.mod_eq_of_lt hb] at this

theorem addOk_spec {P Q : StarkPoint} {q1 q2 q3 : Nat × Nat} (h1 : MontPt P q1) (h2 : MontPt Q q2) (h : addOk q1 q2 q3 = true) :
    MontPt (P + Q) q3 := by
  obtain ⟨x1, y1⟩ := q1
  obtain ⟨x2, y2⟩ := q2
  obtain ⟨x3, y3⟩ := q3
  unfold addOk at h
  simp only [Bool.and_eq_true, Bool.not_eq_true', Nat.beq_eq, Nat.blt_eq] at h
  obtain ⟨⟨⟨⟨a1, a2⟩, a3⟩, a4⟩, a5⟩ := h
  obtain ⟨b1, b2, u1, v1, hP, e1, f1⟩ := h1
  obtain ⟨c1, c2, u2, v2, hQ, e2, f2⟩ := h2
  simp only at b1 b2 e1 f1 c1 c2 e2 f2
  refine ⟨a1, a2, ?_⟩
  simp only
  have g1 := cast_eq_of_mod a4
  have g2 := cast_eq_of_mod a5
  simp only [Nat.cast_add, Nat.cast_mul, castPsub c1.le, castPsub c2.le, castPsub a1.le, mRp_cast] at g1 g2
  have hR := mR_ne
  generalize ((mR : Nat) : Spec.F) = R at *
  have hne : u1 ≠ u2 := by
    rintro rfl
    have : x1 = x2 := cast_inj b1 c1 (e1.symm.trans e2)
    rw [this] at a3
    exact absurd (Nat.beq_refl x2) (by rw [a3]; decide)
  have hd : u1 - u2 ≠ 0 := sub_ne_zero.2 hne
  rw [← e1, ← e2, ← f1, ← f2] at g1
  rw [← e1, ← e2, ← f1, ← f2] at g2
  refine ⟨x3 / R, y3 / R, ?_, div_mul_cancel₀ _ hR, div_mul_cancel₀ _ hR⟩
  refine hP.add_ne hQ hne (l := (v1 - v2) / (u1 - u2)) (div_mul_cancel₀ _ hd) ?_ ?_
  · have : ((x3 : Spec.F) / R + u1 + u2) * (u1 - u2) ^ 2 = (v1 - v2) ^ 2 := by
      have hR3 : R ^ 3 ≠ 0 := pow_ne_zero _ hR
      apply mul_left_cancel₀ hR3
      have hx : (x3 : Spec.F) = x3 / R * R := (div_mul_cancel₀ _ hR).symm
      rw [hx] at g1
      linear_combination g1
    have h2 : (u1 - u2) ^ 2 ≠ 0 := pow_ne_zero _ hd
    rw [div_pow, ← this, mul_div_cancel_right₀ _ h2]; ring
  · have : ((y3 : Spec.F) / R + v1) * (u1 - u2) = (v1 - v2) * (u1 - x3 / R) := by
      have hR3 : R ^ 2 ≠ 0 := pow_ne_zero _ hR
      apply mul_left_cancel₀ hR3
      have hx : (x3 : Spec.F) = x3 / R * R := (div_mul_cancel₀ _ hR).symm
      have hy : (y3 : Spec.F) = y3 / R * R := (div_mul_cancel₀ _ hR).symm
      rw [hx, hy] at g2
      linear_combination g2
    rw [eq_sub_iff_add_eq, div_mul_eq_mul_div, ← this, mul_div_cancel_right₀ _ hd]

theorem doubleOk_spec {P : StarkPoint} {q1 q3 : Nat × Nat} (h1 : MontPt P q1) (h : doubleOk q1 q3 = true) :
    MontPt (P + P) q3 := by
  obtain ⟨x1, y1⟩ := q1
  obtain ⟨x3, y3⟩ := q3
  unfold doubleOk at h
  simp only [Bool.and_eq_true, Nat.beq_eq, Nat.blt_eq] at h
  obtain ⟨⟨⟨a1, a2⟩, a4⟩, a5⟩ := h
  obtain ⟨b1, b2, u1, v1, hP, e1, f1⟩ := h1
  simp only at b1 b2 e1 f1
  refine ⟨a1, a2, ?_⟩
  simp only
  have g1 := cast_eq_of_mod a4
  have g2 := cast_eq_of_mod a5
  simp only [Nat.cast_add, Nat.cast_mul, castPsub a1.le, mRp_cast, Nat.cast_two, Nat.cast_three] at g1 g2
  have hR := mR_ne
  generalize ((mR : Nat) : Spec.F) = R at *
  have hv := hP.onCurve.y_ne
  have hd : 2 * v1 ≠ 0 := mul_ne_zero two_ne_zero' hv
  rw [← e1, ← f1] at g1
  rw [← e1, ← f1] at g2
  refine ⟨x3 / R, y3 / R, ?_, div_mul_cancel₀ _ hR, div_mul_cancel₀ _ hR⟩
  refine hP.double (l := (3 * u1 ^ 2 + 1) / (2 * v1)) (div_mul_cancel₀ _ hd) ?_ ?_
  · have : ((x3 : Spec.F) / R + u1 + u1) * (2 * v1) ^ 2 = (3 * u1 ^ 2 + 1) ^ 2 := by
      have hR3 : R ^ 4 ≠ 0 := pow_ne_zero _ hR
      apply mul_left_cancel₀ hR3
      have hx : (x3 : Spec.F) = x3 / R * R := (div_mul_cancel₀ _ hR).symm
      rw [hx] at g1
      linear_combination g1
    have h2 : (2 * v1) ^ 2 ≠ 0 := pow_ne_zero _ hd
    rw [div_pow, ← this, mul_div_cancel_right₀ _ h2]; ring
  · have : ((y3 : Spec.F) / R + v1) * (2 * v1) = (3 * u1 ^ 2 + 1) * (u1 - x3 / R) := by
      have hR3 : R ^ 3 ≠ 0 := pow_ne_zero _ hR
      apply mul_left_cancel₀ hR3
      have hx : (x3 : Spec.F) = x3 / R * R := (div_mul_cancel₀ _ hR).symm
      have hy : (y3 : Spec.F) = y3 / R * R := (div_mul_cancel₀ _ hR).symm
      rw [hx, hy] at g2
      linear_combination g2
    rw [eq_sub_iff_add_eq, div_mul_eq_mul_div, ← this, mul_div_cancel_right₀ _ hd]

theorem seqOk_spec {B : StarkPoint} {b : Nat × Nat} {k : Nat × Nat → Bool} (hb : MontPt B b) {l : List (Nat × Nat)} :
    ∀ {p : Nat × Nat} {m : Nat}, MontPt (m • B) p → seqOk b k p l = true →
      (∀ j q, l[j]? = some q → MontPt ((m + 1 + j) • B) q) ∧ ∃ p', k p' = true ∧ MontPt ((m + l.length) • B) p' := by
  induction l with
  | nil =>
    intro p m hp h
    exact ⟨fun j q hq => by simp at hq, p, h, hp⟩
  | cons q l ih =>
    intro p m hp h
    rw [seqOk, Bool.and_eq_true] at h
    have hq := addOk_spec hb hp h.1
    rw [add_comm, ← succ_nsmul] at hq
    obtain ⟨h1, p', h2, h3⟩ := ih hq h.2
    refine ⟨fun j q' hj => ?_, p', h2, ?_⟩
    · cases j with
      | zero =>
        rw [List.getElem?_cons_zero, Option.some_inj] at hj
        exact hj ▸ hq
      | succ j =>
        rw [List.getElem?_cons_succ] at hj
        have := h1 j q' hj
        rwa [show m + 1 + 1 + j = m + 1 + (j + 1) by omega] at this
    · rwa [List.length_cons, show m + (l.length + 1) = m + 1 + l.length by omega]

theorem chunkOk_spec {B : StarkPoint} {b : Nat × Nat} {k : Nat × Nat → Bool} (hb : MontPt B b) {l : List (Nat × Nat)}
    (h : chunkOk b k l = true) :
    (∀ j q, l[j]? = some q → MontPt ((j + 1) • B) q) ∧ ∃ p', k p' = true ∧ MontPt (l.length • B) p' := by
  match l, h with
  | q0 :: q1 :: l, h =>
    rw [chunkOk] at h
    simp only [Bool.and_eq_true, Nat.beq_eq] at h
    obtain ⟨⟨⟨a1, a2⟩, a3⟩, a4⟩ := h
    have e0 : q0 = b := Prod.ext a1 a2
    have h1 := doubleOk_spec hb a3
    rw [← two_nsmul] at h1
    obtain ⟨c1, p', c2, c3⟩ := seqOk_spec hb h1 a4
    refine ⟨fun j q hj => ?_, p', c2, ?_⟩
    · match j with
      | 0 =>
        rw [List.getElem?_cons_zero, Option.some_inj] at hj
        rw [← hj, e0, zero_add, one_nsmul]; exact hb
      | 1 =>
        rw [List.getElem?_cons_succ, List.getElem?_cons_zero, Option.some_inj] at hj
        exact hj ▸ h1
      | j + 2 =>
        rw [List.getElem?_cons_succ, List.getElem?_cons_succ] at hj
        have := c1 j q hj
        rwa [show 2 + 1 + j = j + 2 + 1 by omega] at this
    · rwa [List.length_cons, List.length_cons, show l.length + 1 + 1 = 2 + l.length by omega]

/-- Every entry of a checked table. -/
theorem tableOk_spec {size : Nat} {cs : List (List (Nat × Nat))} : ∀ {B : StarkPoint} {b : Nat × Nat}, MontPt B b →
    tableOk size b cs = true → ∀ i j, i < cs.length → j < size →
      ∃ q, cs.flatten[i * size + j]? = some q ∧ MontPt (((j + 1) * (size + 1) ^ i) • B) q := by
  induction cs with
  | nil => intro B b _ _ i j hi; simp at hi
  | cons c cs ih =>
    intro B b hb h i j hi hj
    unfold tableOk at h
    simp only [Bool.and_eq_true, Nat.beq_eq] at h
    obtain ⟨hlen, h⟩ := h
    have first : ∀ {k}, chunkOk b k c = true → i = 0 →
        ∃ q, (c :: cs).flatten[i * size + j]? = some q ∧ MontPt (((j + 1) * (size + 1) ^ i) • B) q := by
      intro k hk h0
      obtain ⟨h1, _⟩ := chunkOk_spec hb hk
      subst h0
      have hjc : j < c.length := hlen ▸ hj
      refine ⟨c[j], ?_, ?_⟩
      · rw [List.flatten_cons, Nat.zero_mul, Nat.zero_add, List.getElem?_append_left hjc, List.getElem?_eq_getElem hjc]
      · rw [pow_zero, mul_one]; exact h1 j _ (List.getElem?_eq_getElem hjc)
    cases cs with
    | nil => exact first h (by simpa using hi)
    | cons c1 cs =>
    cases c1 with
    | nil => simp at h
    | cons b' c' =>
      simp only [Bool.and_eq_true] at h
      cases i with
      | zero => exact first h.1 rfl
      | succ i =>
        obtain ⟨_, p', k1, k2⟩ := chunkOk_spec hb h.1
        have hb' := addOk_spec hb k2 k1
        rw [add_comm, ← succ_nsmul, hlen] at hb'
        obtain ⟨q, h3, h4⟩ := ih hb' h.2 i j (by simpa using hi) hj
        refine ⟨q, ?_, ?_⟩
        · rw [List.flatten_cons, List.getElem?_append_right (by rw [hlen, Nat.add_mul]; omega), ← h3]
          congr 1
          rw [hlen, Nat.add_mul]; omega
        · rw [← mul_nsmul'] at h4
          rwa [pow_succ, ← mul_assoc]

/-! ## Entries as points of the program -/

theorem rawLimbs_spec {n : Nat} (h : n < 2 ^ 256) : (rawLimbs n).Ok ∧ (rawLimbs n).nat = n := by
  have hn : (rawLimbs n).nat = n % 18446744073709551616 + 18446744073709551616 * (n / 18446744073709551616 % 18446744073709551616) +
      340282366920938463463374607431768211456 * (n / 340282366920938463463374607431768211456 % 18446744073709551616) +
      6277101735386680763835789423207666416102355444464034512896 *
        (n / 6277101735386680763835789423207666416102355444464034512896 % 18446744073709551616) := rfl
  refine ⟨⟨Nat.mod_lt _ (by decide), Nat.mod_lt _ (by decide), Nat.mod_lt _ (by decide), Nat.mod_lt _ (by decide)⟩, ?_⟩
  rw [hn]
  have h' : n < 115792089237316195423570985008687907853269984665640564039457584007913129639936 := h
  omega

theorem num_mont {x : Limbs} (h : x.Ok) : num x * ((mR : Nat) : Spec.F) = (x.nat : Spec.F) := by
  have h1 := (toNative_spec (modulus_good .felt) h).2
  rw [prime_eq] at h1
  have := (ZMod.natCast_eq_natCast_iff _ _ _).2 h1
  rw [Nat.cast_mul] at this
  exact this

theorem MontPt.repr {P : StarkPoint} {q : Nat × Nat} (h : MontPt P q) : (AffPoint.fromRaw q).Repr P := by
  obtain ⟨hx, hy, x, y, hc, ex, ey⟩ := h
  obtain ⟨a1, a2⟩ := rawLimbs_spec (lt_trans hx (by decide))
  obtain ⟨b1, b2⟩ := rawLimbs_spec (lt_trans hy (by decide))
  have a3 : (rawLimbs q.1).nat < Kind.felt.prime := by rw [a2, pN_eq]; exact hx
  have b3 : (rawLimbs q.2).nat < Kind.felt.prime := by rw [b2, pN_eq]; exact hy
  refine .mk ⟨⟨a1, a3⟩, ⟨b1, b3⟩⟩ rfl ?_
  have h1 : num (rawLimbs q.1) = x := by
    apply mul_right_cancel₀ mR_ne
    rw [num_mont a1, a2, ex]
  have h2 : num (rawLimbs q.2) = y := by
    apply mul_right_cancel₀ mR_ne
    rw [num_mont b1, b2, ey]
  show HasCoords P (num (rawLimbs q.1)) (num (rawLimbs q.2))
  rw [h1, h2]; exact hc

/-- The table has, for each of `rows` chunks of `n` bits, the multiples of `B` that the values of the chunk stand for. -/
def TableFor (n rows : Nat) (t : List AffPoint) (B : StarkPoint) : Prop :=
  ∀ i o, i < rows → 0 < o → o < 2 ^ n → ∃ q, t[i * (2 ^ n - 1) + o - 1]? = some q ∧ q.Repr ((o * 2 ^ (n * i)) • B)

theorem tableFor {n per : Nat} {chunks : List (List Nat)} {B : StarkPoint} {b : Nat × Nat} (hb : MontPt B b)
    (h : tableOk (2 ^ n - 1) b (chunks.map (rawPoints per)) = true) : TableFor n chunks.length (tablePoints per chunks) B := by
  intro i o hi ho1 ho2
  obtain ⟨q, h1, h2⟩ := tableOk_spec hb h i (o - 1) (by rwa [List.length_map]) (by omega)
  refine ⟨.fromRaw q, ?_, ?_⟩
  · unfold tablePoints
    rw [List.getElem?_map, show i * (2 ^ n - 1) + o - 1 = i * (2 ^ n - 1) + (o - 1) by omega, h1]; rfl
  · have := h2.repr
    rwa [show o - 1 + 1 = o by omega, show 2 ^ n - 1 + 1 = 2 ^ n by omega, ← pow_mul] at this

/-! ## Loops over chunks of bits -/

theorem loadLe_eq (l : List Bool) : loadLe l = leValue l := by
  induction l with
  | nil => rfl
  | cons b l ih => rw [loadLe, leValue, ih]

theorem leValue_append' (l r : List Bool) : leValue (l ++ r) = leValue l + 2 ^ l.length * leValue r := by
  induction l with
  | nil => simp [leValue]
  | cons a l ih =>
    rw [List.cons_append, leValue, leValue, ih, List.length_cons, pow_succ]; ring

theorem bitChunks_nil {n : Nat} (hn : 0 < n) : bitChunks n [] = [] := by
  unfold bitChunks
  rw [show ([] : List Bool).length = 0 from rfl, Nat.zero_add, Nat.div_eq_of_lt (by omega)]; rfl

theorem bitChunks_cons {n : Nat} (hn : 0 < n) {l : List Bool} (h : l ≠ []) :
    bitChunks n l = l.take n :: bitChunks n (l.drop n) := by
  have hl := List.length_pos_iff.2 h
  have e : (l.length + n - 1) / n = ((l.drop n).length + n - 1) / n + 1 := by
    rw [List.length_drop]
    by_cases hc : n ≤ l.length
    · rw [← Nat.add_div_right _ hn]
      congr 1; omega
    · rw [show l.length - n = 0 by omega, Nat.zero_add, Nat.div_eq_of_lt (show n - 1 < n by omega),
        show l.length + n - 1 = l.length - 1 + n by omega, Nat.add_div_right _ hn, Nat.div_eq_of_lt (show l.length - 1 < n by omega)]
  unfold bitChunks
  rw [e, List.range_succ_eq_map, List.map_cons, List.map_map]
  refine congrArg₂ _ (by rw [Nat.mul_zero, List.drop_zero]) (List.map_congr_left fun i _ => ?_)
  simp only [Function.comp, List.drop_drop]
  congr 2
  rw [Nat.mul_succ, Nat.add_comm]

section
attribute [local irreducible] ProjPoint.addAffine

/-- The loop of `add_points`. -/
theorem addPoints_spec {n rows : Nat} (hn : 0 < n) {t : List AffPoint} {B : StarkPoint} (ht : TableFor n rows t B) :
    ∀ (k : Nat) (bits : List Bool), bits.length ≤ k → ∀ {a : ProjPoint} {P : StarkPoint} {i : Nat}, a.Repr P →
      leValue bits * 2 ^ (n * i) < 2 ^ (n * rows) →
      ∃ a', ((bitChunks n bits).zipIdx i).foldl (addChunk n t) (some a) = some a' ∧
        a'.Repr (P + (leValue bits * 2 ^ (n * i)) • B) := by
  intro k
  induction k with
  | zero =>
    intro bits hl a P i ha _
    obtain rfl := List.length_eq_zero_iff.1 (Nat.le_zero.1 hl)
    rw [bitChunks_nil hn]
    refine ⟨a, rfl, ?_⟩
    rw [leValue, Nat.zero_mul, zero_nsmul, add_zero]; exact ha
  | succ k ih =>
    intro bits hl a P i ha hv
    by_cases h0 : bits = []
    · subst h0
      rw [bitChunks_nil hn]
      refine ⟨a, rfl, ?_⟩
      rw [leValue, Nat.zero_mul, zero_nsmul, add_zero]; exact ha
    have hpos := List.length_pos_iff.2 h0
    rw [bitChunks_cons hn h0, List.zipIdx_cons, List.foldl_cons]
    have hsplit : leValue bits = leValue (bits.take n) + 2 ^ n * leValue (bits.drop n) := by
      conv_lhs => rw [← List.take_append_drop n bits]
      rw [leValue_append', List.length_take]
      by_cases hc : n ≤ bits.length
      · rw [Nat.min_eq_left hc]
      · rw [List.drop_eq_nil_of_le (by omega)]; simp [leValue]
    have hstep : leValue bits * 2 ^ (n * i) = leValue (bits.take n) * 2 ^ (n * i) + leValue (bits.drop n) * 2 ^ (n * (i + 1)) := by
      rw [hsplit, Nat.mul_add, pow_add, mul_one]; ring
    have hlt : leValue (bits.take n) < 2 ^ n := lt_of_lt_of_le (leValue_lt _)
      (Nat.pow_le_pow_right (by decide) (by rw [List.length_take]; exact Nat.min_le_left _ _))
    rw [hstep] at hv
    have hdrop : (bits.drop n).length ≤ k := by rw [List.length_drop]; omega
    have main : ∀ {a1 : ProjPoint}, a1.Repr (P + (leValue (bits.take n) * 2 ^ (n * i)) • B) →
        ∃ a', ((bitChunks n (bits.drop n)).zipIdx (i + 1)).foldl (addChunk n t) (some a1) = some a' ∧
          a'.Repr (P + (leValue bits * 2 ^ (n * i)) • B) := by
      intro a1 h1
      obtain ⟨a', h2, h3⟩ := ih (bits.drop n) hdrop (i := i + 1) h1 (by omega)
      refine ⟨a', h2, ?_⟩
      rw [hstep, add_nsmul, ← add_assoc]; exact h3
    by_cases hz : leValue (bits.take n) > 0
    · have e : addChunk n t (some a) (bits.take n, i) =
          (some a).bind fun a => (t[i * (2 ^ n - 1) + leValue (bits.take n) - 1]?).map a.addAffine := by
        unfold addChunk; simp only [loadLe_eq]; rw [if_pos hz]
      rw [e]
      have hi : i < rows := by
        by_contra hge
        have : 2 ^ (n * rows) ≤ 2 ^ (n * i) := Nat.pow_le_pow_right (by decide) (Nat.mul_le_mul_left _ (by omega))
        have : 1 * 2 ^ (n * i) ≤ leValue (bits.take n) * 2 ^ (n * i) := Nat.mul_le_mul_right _ hz
        omega
      obtain ⟨q, h1, h2⟩ := ht i _ hi hz hlt
      rw [h1, Option.bind_some, Option.map_some]
      exact main (ProjPoint.addAffine_repr ha h2)
    · have e : addChunk n t (some a) (bits.take n, i) = some a := by
        unfold addChunk; simp only [loadLe_eq]; rw [if_neg hz]
      rw [e]
      have : leValue (bits.take n) = 0 := by omega
      rw [this] at main
      rw [Nat.zero_mul, zero_nsmul, add_zero] at main
      exact main ha

end

end Verif.Crypto
