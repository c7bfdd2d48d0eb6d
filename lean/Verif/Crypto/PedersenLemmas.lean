import Verif.Crypto.TableLemmas
import Verif.Crypto.FeltProps
import Verif.Crypto.PedersenSpec
/-! # Lemmas for the Pedersen hash: the tables and the bits -/
namespace Verif.Crypto

/-! ## The tables -/

/-- The Montgomery representation of a point with these coordinates. -/
theorem MontPt.of {P : StarkPoint} {x y : Nat} (h : HasCoords P (x : Spec.F) (y : Spec.F)) :
    MontPt P (x * mRp % pN, y * mRp % pN) := by
  refine ⟨Nat.mod_lt _ (by decide), Nat.mod_lt _ (by decide), _, _, h, ?_, ?_⟩
  · rw [← mRp_cast, ← Nat.cast_mul]; exact (castMod _).symm
  · rw [← mRp_cast, ← Nat.cast_mul]; exact (castMod _).symm

theorem tableG_spec {G : StarkPoint} (h : HasCoords G (gX : Spec.F) (gY : Spec.F)) : TableFor 4 63 tableG G :=
  tableFor (n := 4) (per := 15) (chunks := rawG) (MontPt.of h) (by decide +kernel)

theorem tableP1_spec {P0 P1 P2 P3 P4 : StarkPoint} (h : PedersenPoints P0 P1 P2 P3 P4) : TableFor 8 31 tableP1 P1 :=
  tableFor (n := 8) (per := 51) (chunks := rawP1) (MontPt.of h.p1) (by decide +kernel)

theorem tableP2_spec {P0 P1 P2 P3 P4 : StarkPoint} (h : PedersenPoints P0 P1 P2 P3 P4) : TableFor 4 1 tableP2 P2 :=
  tableFor (n := 4) (per := 15) (chunks := rawP2) (MontPt.of h.p2) (by decide +kernel)

theorem tableP3_spec {P0 P1 P2 P3 P4 : StarkPoint} (h : PedersenPoints P0 P1 P2 P3 P4) : TableFor 8 31 tableP3 P3 :=
  tableFor (n := 8) (per := 51) (chunks := rawP3) (MontPt.of h.p3) (by decide +kernel)

theorem tableP4_spec {P0 P1 P2 P3 P4 : StarkPoint} (h : PedersenPoints P0 P1 P2 P3 P4) : TableFor 4 1 tableP4 P4 :=
  tableFor (n := 4) (per := 15) (chunks := rawP4) (MontPt.of h.p4) (by decide +kernel)

/-- The first point of the program. -/
theorem pedersenP0_spec {P0 P1 P2 P3 P4 : StarkPoint} (h : PedersenPoints P0 P1 P2 P3 P4) : pedersenP0.Repr P0 := by
  have hx : Elem .felt pedersenP0.x ∧ num pedersenP0.x = (0x49ee3eba8c1600700ee1b87eb599f16716b0b1022947733551fde4050ca6804 : Nat) := by
    obtain ⟨h1, h2⟩ := fromNative_num (x := ⟨0x551fde4050ca6804, 0x716b0b1022947733, 0x00ee1b87eb599f16, 0x49ee3eba8c16007⟩)
      ⟨by decide, by decide, by decide, by decide⟩
    exact ⟨h1, h2.trans (congrArg _ (by decide +kernel))⟩
  have hy : Elem .felt pedersenP0.y ∧ num pedersenP0.y = (0x3ca0cfe4b3bc6ddf346d49d06ea0ed34e621062c0e056c1d0405d266e10268a : Nat) := by
    obtain ⟨h1, h2⟩ := fromNative_num (x := ⟨0xd0405d266e10268a, 0x4e621062c0e056c1, 0xf346d49d06ea0ed3, 0x3ca0cfe4b3bc6dd⟩)
      ⟨by decide, by decide, by decide, by decide⟩
    exact ⟨h1, h2.trans (congrArg _ (by decide +kernel))⟩
  have hz : num pedersenP0.z = 1 := num_R.2
  refine .mk ⟨hx.1, hy.1, num_R.1, by rw [hz]; exact one_ne_zero⟩ rfl ?_
  rw [hz, div_one, div_one, hx.2, hy.2]; exact h.p0

/-- There are such points. -/
theorem pedersenPoints : ∃ P0 P1 P2 P3 P4, PedersenPoints P0 P1 P2 P3 P4 := by
  obtain ⟨P0, h0⟩ := (onCurve_nat (x := 0x49ee3eba8c1600700ee1b87eb599f16716b0b1022947733551fde4050ca6804)
    (y := 0x3ca0cfe4b3bc6ddf346d49d06ea0ed34e621062c0e056c1d0405d266e10268a) (by decide +kernel)).point
  obtain ⟨P1, h1⟩ := (onCurve_nat (x := 0x234287dcbaffe7f969c748655fca9e58fa8120b6d56eb0c1080d17957ebe47b)
    (y := 0x3b056f100f96fb21e889527d41f4e39940135dd7a6c94cc6ed0268ee89e5615) (by decide +kernel)).point
  obtain ⟨P2, h2⟩ := (onCurve_nat (x := 0x4fa56f376c83db33f9dab2656558f3399099ec1de5e3018b7a6932dba8aa378)
    (y := 0x3fa0984c931c9e38113e0c0e47e4401562761f92a7a23b45168f4e80ff5b54d) (by decide +kernel)).point
  obtain ⟨P3, h3⟩ := (onCurve_nat (x := 0x4ba4cc166be8dec764910f75b45f74b40c690c74709e90f3aa372f0bd2d6997)
    (y := 0x40301cf5c1751f4b971e46c4ede85fcac5c59a5ce5ae7c48151f27b24b219c) (by decide +kernel)).point
  obtain ⟨P4, h4⟩ := (onCurve_nat (x := 0x54302dcb0e6cc1c6e44cca8f61a63bb2ca65048d53fb325d36ff12c49a58202)
    (y := 0x1b77b3e37d13504b348046268d8ae25ce98ad783c25561a879dcc77e99c2426) (by decide +kernel)).point
  exact ⟨P0, P1, P2, P3, P4, h0, h1, h2, h3, h4⟩

/-! ## The bits -/

theorem byte_leValue {b : Nat} (h : b < 256) : leValue ((List.range 8).map b.testBit) = b := by
  rw [leValue_testBit]; exact Nat.mod_eq_of_lt h

theorem leViewBits_spec {f : Bytes} (h : ∀ b ∈ f, b < 256) : (leViewBits f).length = 8 * f.length ∧ leValue (leViewBits f) = beNat f := by
  induction f using List.reverseRecOn with
  | nil => exact ⟨rfl, rfl⟩
  | append_singleton l b ih =>
    obtain ⟨h1, h2⟩ := ih fun x hx => h x (List.mem_append_left _ hx)
    have hb := h b (List.mem_append_right _ (List.mem_singleton.2 rfl))
    unfold leViewBits at h1 h2 ⊢
    rw [List.reverse_append, List.reverse_singleton, List.singleton_append, List.flatMap_cons]
    constructor
    · rw [List.length_append, h1, List.length_append, List.length_map, List.length_range, List.length_singleton]; ring
    · rw [leValue_append', h2, byte_leValue hb, List.length_map, List.length_range, beNat_snoc]; ring

theorem leValue_take_drop (bits : List Bool) (n : Nat) (h : n ≤ bits.length) :
    leValue (bits.take n) = leValue bits % 2 ^ n ∧ leValue (bits.drop n) = leValue bits / 2 ^ n := by
  have e : leValue bits = leValue (bits.take n) + 2 ^ n * leValue (bits.drop n) := by
    conv_lhs => rw [← List.take_append_drop n bits]
    rw [leValue_append', List.length_take, Nat.min_eq_left h]
  have hlt : leValue (bits.take n) < 2 ^ n := by
    have := leValue_lt (bits.take n)
    rwa [List.length_take, Nat.min_eq_left h] at this
  rw [e]
  constructor
  · rw [Nat.add_mul_mod_self_left, Nat.mod_eq_of_lt hlt]
  · rw [Nat.add_mul_div_left _ _ (by positivity), Nat.div_eq_of_lt hlt, Nat.zero_add]

section
attribute [local irreducible] ProjPoint.addAffine

/-- `add_points` over a whole table. -/
theorem addPoints_repr {n rows : Nat} (hn : 0 < n) {t : List AffPoint} {B : StarkPoint} (ht : TableFor n rows t B) {bits : List Bool}
    {a : ProjPoint} {P : StarkPoint} (ha : a.Repr P) (hv : leValue bits < 2 ^ (n * rows)) :
    ∃ a', addPoints n t (some a) bits = some a' ∧ a'.Repr (P + leValue bits • B) := by
  have := addPoints_spec hn ht _ bits le_rfl (i := 0) ha (by rwa [Nat.mul_zero, pow_zero, mul_one])
  rwa [Nat.mul_zero, pow_zero, mul_one] at this

/-- `add_points` with four bits, for which the table has fifteen points. -/
theorem addPoints_short {t : List AffPoint} {B : StarkPoint} (ht : TableFor 4 1 t B) {bits : List Bool} (hl : bits.length = 4)
    {a : ProjPoint} {P : StarkPoint} (ha : a.Repr P) :
    ∃ a', addPoints 8 t (some a) bits = some a' ∧ a'.Repr (P + leValue bits • B) := by
  have h0 : bits ≠ [] := by rintro rfl; simp at hl
  have e : bitChunks 8 bits = [bits] := by
    rw [bitChunks_cons (by decide) h0, List.take_of_length_le (by omega), List.drop_eq_nil_of_le (by omega),
      bitChunks_nil (by decide)]
  unfold addPoints
  rw [e, List.zipIdx_cons, List.zipIdx_nil, List.foldl_cons, List.foldl_nil]
  unfold addChunk
  simp only [loadLe_eq]
  by_cases hz : leValue bits > 0
  · rw [if_pos hz]
    have hlt := leValue_lt bits
    rw [hl] at hlt
    obtain ⟨q, h1, h2⟩ := ht 0 _ (by decide) hz hlt
    rw [Nat.zero_mul] at h1 ⊢
    rw [h1, Option.bind_some, Option.map_some]
    refine ⟨_, rfl, ?_⟩
    rw [Nat.mul_zero, pow_zero, mul_one] at h2
    exact ProjPoint.addAffine_repr ha h2
  · rw [if_neg hz]
    refine ⟨a, rfl, ?_⟩
    rw [show leValue bits = 0 by omega, zero_nsmul, add_zero]; exact ha

end

end Verif.Crypto
