import Mathlib.Data.List.GetD
import Verif.Crypto.FieldProps
import Verif.Crypto.Poseidon
import Verif.Crypto.PoseidonSpec
/-! # C32: Poseidon -/
namespace Verif.Crypto

/-- The number of an element in the field of the specification. -/
def num (x : Limbs) : Spec.F := (value .felt x : Spec.F)

/-- The round constants of the program as numbers. -/
def roundConst (i : Nat) : Spec.F := num (pconst i)

instance : Fact Kind.felt.prime.Prime := ⟨C29_prime .felt⟩

section
attribute [local irreducible] add sub mul double square roundConst Spec.full Spec.part

theorem num_cast {x : Limbs} (n : Nat) (h : value .felt x = n % Kind.felt.prime) : num x = (n : Spec.F) := by
  unfold num; rw [h, ZMod.natCast_mod]

theorem num_add {a b : Limbs} (ha : Elem .felt a) (hb : Elem .felt b) :
    Elem .felt (add fieldMod a b) ∧ num (add fieldMod a b) = num a + num b := by
  obtain ⟨h1, h2⟩ := C29_add ha hb
  refine ⟨h1, (num_cast _ h2).trans ?_⟩
  rw [Nat.cast_add]; rfl

theorem num_sub {a b : Limbs} (ha : Elem .felt a) (hb : Elem .felt b) :
    Elem .felt (sub fieldMod a b) ∧ num (sub fieldMod a b) = num a - num b := by
  obtain ⟨h1, h2⟩ := C29_sub ha hb
  refine ⟨h1, (num_cast _ h2).trans ?_⟩
  rw [Nat.cast_add, Nat.cast_sub (C29_value_lt hb).le, ZMod.natCast_self]
  unfold num; ring

theorem num_double {a : Limbs} (ha : Elem .felt a) :
    Elem .felt (double fieldMod a) ∧ num (double fieldMod a) = 2 * num a := by
  obtain ⟨h1, h2⟩ := C29_double ha
  refine ⟨h1, (num_cast _ h2).trans ?_⟩
  rw [Nat.cast_mul]; rfl

theorem num_mul {a b : Limbs} (ha : Elem .felt a) (hb : Elem .felt b) :
    Elem .felt (mul fieldMod a b) ∧ num (mul fieldMod a b) = num a * num b := by
  obtain ⟨h1, h2⟩ := C29_mul ha hb
  refine ⟨h1, (num_cast _ h2).trans ?_⟩
  rw [Nat.cast_mul]; rfl

theorem num_square {a : Limbs} (ha : Elem .felt a) :
    Elem .felt (square fieldMod a) ∧ num (square fieldMod a) = num a * num a := by
  obtain ⟨h1, h2⟩ := C29_square ha
  refine ⟨h1, (num_cast _ h2).trans ?_⟩
  rw [Nat.cast_mul]; rfl

theorem num_cube {a : Limbs} (ha : Elem .felt a) : Elem .felt (cube a) ∧ num (cube a) = num a ^ 3 := by
  obtain ⟨h1, h2⟩ := num_square ha
  obtain ⟨h3, h4⟩ := num_mul h1 ha
  refine ⟨h3, h4.trans ?_⟩
  rw [h2]; ring

theorem num_one : Elem .felt montOne ∧ num montOne = 1 := by
  obtain ⟨h1, h2⟩ := C29_one .felt
  refine ⟨h1, ?_⟩
  show ((value .felt _ : Nat) : Spec.F) = 1
  rw [show montOne = Kind.felt.modulus.R from rfl, h2, Nat.cast_one]

theorem num_zero : Elem .felt zero ∧ num zero = 0 := by
  obtain ⟨h1, h2⟩ := C29_zero .felt
  refine ⟨h1, ?_⟩
  show ((value .felt _ : Nat) : Spec.F) = 0
  rw [h2, Nat.cast_zero]

theorem num_two : Elem .felt montTwo ∧ num montTwo = 2 := by
  obtain ⟨h1, h2⟩ := num_add num_one.1 num_one.1
  refine ⟨h1, h2.trans ?_⟩
  rw [num_one.2]; norm_num

theorem num_inj {a b : Limbs} (ha : Elem .felt a) (hb : Elem .felt b) : num a = num b ↔ a = b := by
  refine ⟨fun h => ?_, fun h => by rw [h]⟩
  refine (C29_value_inj ha hb).1 ?_
  have := (ZMod.natCast_eq_natCast_iff' _ _ _).1 h
  rwa [Nat.mod_eq_of_lt (C29_value_lt ha), Nat.mod_eq_of_lt (C29_value_lt hb)] at this

theorem num_surj (y : Spec.F) : ∃ x, Elem .felt x ∧ num x = y := by
  obtain ⟨x, h1, h2⟩ := C29_surjective (k := .felt) (ZMod.val_lt y)
  refine ⟨x, h1, ?_⟩
  unfold num; rw [h2, ZMod.natCast_zmod_val]

/-- All three are elements. -/
structure PState.Ok (s : PState) : Prop where
  s0 : Elem .felt s.s0
  s1 : Elem .felt s.s1
  s2 : Elem .felt s.s2

/-- The state as numbers. -/
def PState.num (s : PState) : Spec.State := (Crypto.num s.s0, Crypto.num s.s1, Crypto.num s.s2)

theorem mix_spec {s : PState} (h : s.Ok) : (mix s).Ok ∧ (mix s).num = Spec.mix s.num := by
  obtain ⟨a1, a2⟩ := num_add h.s0 h.s1
  obtain ⟨b1, b2⟩ := num_add a1 h.s2
  obtain ⟨c1, c2⟩ := num_double h.s0
  obtain ⟨d1, d2⟩ := num_double h.s1
  obtain ⟨e1, e2⟩ := num_double h.s2
  obtain ⟨f1, f2⟩ := num_add e1 h.s2
  obtain ⟨x1, x2⟩ := num_add b1 c1
  obtain ⟨y1, y2⟩ := num_sub b1 d1
  obtain ⟨z1, z2⟩ := num_sub b1 f1
  unfold mix
  refine ⟨⟨x1, y1, z1⟩, ?_⟩
  unfold PState.num Spec.mix
  simp only [x2, y2, z2, a2, b2, c2, d2, e2, f2]
  refine Prod.ext ?_ (Prod.ext ?_ ?_) <;> simp only <;> ring

theorem pconst_elem (i : Nat) : Elem .felt (pconst i) := by
  have h : ∀ x ∈ poseidonConsts, Elem .felt x := by
    have : ∀ x ∈ poseidonConsts, x.l0 < W ∧ x.l1 < W ∧ x.l2 < W ∧ x.l3 < W ∧ x.nat < Kind.felt.prime := by decide +kernel
    intro x hx
    obtain ⟨h0, h1, h2, h3, h4⟩ := this x hx
    exact ⟨⟨h0, h1, h2, h3⟩, h4⟩
  unfold pconst
  by_cases hi : i < poseidonConsts.length
  · rw [List.getD_eq_getElem _ _ hi]; exact h _ (List.getElem_mem hi)
  · rw [List.getD_eq_default _ _ (by omega)]; exact num_zero.1

theorem fullRound_spec {s : PState} (h : s.Ok) (i : Nat) :
    (fullRound s i).Ok ∧ (fullRound s i).num = Spec.full roundConst i s.num := by
  obtain ⟨a1, a2⟩ := num_add h.s0 (pconst_elem i)
  obtain ⟨b1, b2⟩ := num_add h.s1 (pconst_elem (i + 1))
  obtain ⟨c1, c2⟩ := num_add h.s2 (pconst_elem (i + 2))
  obtain ⟨d1, d2⟩ := num_cube a1
  obtain ⟨e1, e2⟩ := num_cube b1
  obtain ⟨f1, f2⟩ := num_cube c1
  obtain ⟨h1, h2⟩ := mix_spec (s := ⟨cube (add fieldMod s.s0 (pconst i)), cube (add fieldMod s.s1 (pconst (i + 1))),
    cube (add fieldMod s.s2 (pconst (i + 2)))⟩) ⟨d1, e1, f1⟩
  unfold fullRound
  refine ⟨h1, h2.trans ?_⟩
  unfold Spec.full roundConst
  simp only [PState.num]
  simp only [d2, e2, f2, a2, b2, c2]

theorem partialRound_spec {s : PState} (h : s.Ok) (i : Nat) :
    (partialRound s i).Ok ∧ (partialRound s i).num = Spec.part roundConst i s.num := by
  obtain ⟨c1, c2⟩ := num_add h.s2 (pconst_elem i)
  obtain ⟨f1, f2⟩ := num_cube c1
  obtain ⟨h1, h2⟩ := mix_spec (s := ⟨s.s0, s.s1, cube (add fieldMod s.s2 (pconst i))⟩) ⟨h.s0, h.s1, f1⟩
  unfold partialRound
  refine ⟨h1, h2.trans ?_⟩
  unfold Spec.part roundConst
  simp only [PState.num]
  simp only [f2, c2]

theorem foldl_spec {α : Type} {f : PState → α → PState} {g : Spec.State → α → Spec.State}
    (hf : ∀ s a, s.Ok → (f s a).Ok ∧ (f s a).num = g s.num a) (l : List α) {s : PState} (h : s.Ok) :
    (l.foldl f s).Ok ∧ (l.foldl f s).num = l.foldl g s.num := by
  induction l generalizing s with
  | nil => exact ⟨h, rfl⟩
  | cons a l ih =>
    obtain ⟨h1, h2⟩ := hf s a h
    obtain ⟨h3, h4⟩ := ih h1
    rw [List.foldl_cons, List.foldl_cons, ← h2]
    exact ⟨h3, h4⟩
end

/-- The permutation of the program is the one of the specification, with elements in and out. -/
theorem C32_permute {s : PState} (h : s.Ok) : (permute s).Ok ∧ (permute s).num = Spec.permute roundConst s.num := by
  obtain ⟨h1, h2⟩ := foldl_spec (f := fun s k => fullRound s (3 * k)) (g := fun s k => Spec.full roundConst (3 * k) s)
    (fun s k h => fullRound_spec h (3 * k)) (List.range 4) h
  obtain ⟨h3, h4⟩ := foldl_spec (f := fun s k => partialRound s (12 + k)) (g := fun s k => Spec.part roundConst (12 + k) s)
    (fun s k h => partialRound_spec h (12 + k)) (List.range 83) h1
  obtain ⟨h5, h6⟩ := foldl_spec (f := fun s k => fullRound s (95 + 3 * k)) (g := fun s k => Spec.full roundConst (95 + 3 * k) s)
    (fun s k h => fullRound_spec h (95 + 3 * k)) (List.range 4) h3
  rw [h4, h2] at h6
  unfold permute Spec.permute
  exact ⟨h5, h6⟩

/-! ## It is a permutation -/

/-- The exponent that undoes the cube. -/
def cubeInv : Nat := (2 * (Kind.felt.prime - 1) + 1) / 3

theorem pow_cycle (x : Spec.F) : x ^ (3 * cubeInv) = x := by
  have e : 3 * cubeInv = 2 * (Kind.felt.prime - 1) + 1 := by decide +kernel
  rw [e]
  by_cases h : x = 0
  · rw [h, pow_succ, mul_zero]
  · rw [pow_succ, Nat.mul_comm, pow_mul, ZMod.pow_card_sub_one_eq_one h]; ring

theorem cube_inj {x y : Spec.F} (h : x ^ 3 = y ^ 3) : x = y := by
  rw [← pow_cycle x, ← pow_cycle y, pow_mul, pow_mul, h]

theorem eight_ne : (8 : Spec.F) ≠ 0 := by
  intro h
  have h' : ((8 : Nat) : Spec.F) = 0 := by simpa using h
  have hd := (ZMod.natCast_eq_zero_iff _ _).1 h'
  have := Nat.le_of_dvd (by decide) hd
  revert this
  decide +kernel

theorem mix_inj {s t : Spec.State} (h : Spec.mix s = Spec.mix t) : s = t := by
  obtain ⟨a, b, c⟩ := s
  obtain ⟨x, y, z⟩ := t
  simp only [Spec.mix, Prod.mk.injEq] at h
  obtain ⟨h1, h2, h3⟩ := h
  have ha : a = x := mul_left_cancel₀ eight_ne (by linear_combination h1 + 3 * h2 + 2 * h3)
  subst ha
  have hb : b = y := mul_left_cancel₀ eight_ne (by linear_combination 3 * h1 - 7 * h2 - 2 * h3)
  subst hb
  have hc : c = z := by linear_combination h1
  subst hc
  rfl

theorem full_inj {k : Nat → Spec.F} {i : Nat} {s t : Spec.State} (h : Spec.full k i s = Spec.full k i t) : s = t := by
  obtain ⟨a, b, c⟩ := s
  obtain ⟨x, y, z⟩ := t
  unfold Spec.full at h
  have := mix_inj h
  simp only [Prod.mk.injEq] at this
  obtain ⟨h1, h2, h3⟩ := this
  rw [add_right_cancel (cube_inj h1), add_right_cancel (cube_inj h2), add_right_cancel (cube_inj h3)]

theorem part_inj {k : Nat → Spec.F} {i : Nat} {s t : Spec.State} (h : Spec.part k i s = Spec.part k i t) : s = t := by
  obtain ⟨a, b, c⟩ := s
  obtain ⟨x, y, z⟩ := t
  unfold Spec.part at h
  have := mix_inj h
  simp only [Prod.mk.injEq] at this
  obtain ⟨h1, h2, h3⟩ := this
  rw [h1, h2, add_right_cancel (cube_inj h3)]

theorem foldl_inj {α : Type} {f : Spec.State → α → Spec.State} (hf : ∀ a s t, f s a = f t a → s = t) (l : List α)
    {s t : Spec.State} (h : l.foldl f s = l.foldl f t) : s = t := by
  induction l generalizing s t with
  | nil => exact h
  | cons a l ih => exact hf a s t (ih h)

theorem permute_inj {k : Nat → Spec.F} {s t : Spec.State} (h : Spec.permute k s = Spec.permute k t) : s = t := by
  unfold Spec.permute at h
  simp only at h
  have h1 := foldl_inj (f := fun s i => Spec.full k (95 + 3 * i) s) (fun a s t h => full_inj h) _ h
  have h2 := foldl_inj (f := fun s i => Spec.part k (12 + i) s) (fun a s t h => part_inj h) _ h1
  exact foldl_inj (f := fun s i => Spec.full k (3 * i) s) (fun a s t h => full_inj h) _ h2

theorem PState.num_inj {s t : PState} (hs : s.Ok) (ht : t.Ok) (h : s.num = t.num) : s = t := by
  obtain ⟨a, b, c⟩ := s
  obtain ⟨x, y, z⟩ := t
  simp only [PState.num, Prod.mk.injEq] at h
  obtain rfl : a = x := (Crypto.num_inj hs.s0 ht.s0).1 h.1
  obtain rfl : b = y := (Crypto.num_inj hs.s1 ht.s1).1 h.2.1
  obtain rfl : c = z := (Crypto.num_inj hs.s2 ht.s2).1 h.2.2
  rfl

/-- `permute` maps the triples of elements one to one onto the triples of elements. -/
theorem C32_permute_bijective {t : PState} (ht : t.Ok) : ∃ s : PState, s.Ok ∧ permute s = t ∧ ∀ s' : PState, s'.Ok → permute s' = t → s' = s := by
  have hb : Function.Bijective (Spec.permute roundConst) :=
    Finite.injective_iff_bijective.1 fun _ _ h => permute_inj h
  obtain ⟨⟨a, b, c⟩, h⟩ := hb.2 t.num
  obtain ⟨x, hx, ex⟩ := num_surj a
  obtain ⟨y, hy, ey⟩ := num_surj b
  obtain ⟨z, hz, ez⟩ := num_surj c
  have hok : PState.Ok ⟨x, y, z⟩ := ⟨hx, hy, hz⟩
  have hn : PState.num ⟨x, y, z⟩ = (a, b, c) := by simp only [PState.num, ex, ey, ez]
  have hp : permute ⟨x, y, z⟩ = t := by
    refine PState.num_inj (C32_permute hok).1 ht ?_
    rw [(C32_permute hok).2, hn, h]
  refine ⟨⟨x, y, z⟩, hok, hp, fun s' hs' h' => ?_⟩
  refine PState.num_inj hs' hok (permute_inj (k := roundConst) ?_)
  rw [← (C32_permute hs').2, ← (C32_permute hok).2, h', hp]

/-! ## Hashing -/

theorem write_loop (l : List Limbs) (s : PState) :
    (l.foldl PHasher.write ⟨s, none⟩) = ⟨(chunks2 l).foldl absorbPair s, remainder2 l⟩ := by
  induction l using List.twoStepInduction generalizing s with
  | nil => rfl
  | singleton a => rfl
  | cons_cons a b l ih _ =>
    rw [List.foldl_cons, List.foldl_cons, chunks2, remainder2, List.foldl_cons, ← ih]
    rfl

/-- Writing the messages one by one and finishing gives the hash of the list. -/
theorem C32_streaming (msgs : List Limbs) : (msgs.foldl PHasher.write .new).finish = poseidonHashMany msgs := by
  unfold PHasher.new poseidonHashMany
  rw [write_loop]
  unfold PHasher.finish finishMany
  cases remainder2 msgs <;> rfl

section
attribute [local irreducible] add sub mul double square permute

theorem absorbPair_spec {s : PState} (hs : s.Ok) {a b : Limbs} (ha : Elem .felt a) (hb : Elem .felt b) :
    (absorbPair s (a, b)).Ok ∧ (absorbPair s (a, b)).num =
      Spec.permute roundConst (s.num.1 + num a, s.num.2.1 + num b, s.num.2.2) := by
  obtain ⟨a1, a2⟩ := num_add hs.s0 ha
  obtain ⟨b1, b2⟩ := num_add hs.s1 hb
  obtain ⟨h1, h2⟩ := C32_permute (s := ⟨add fieldMod s.s0 a, add fieldMod s.s1 b, s.s2⟩) ⟨a1, b1, hs.s2⟩
  unfold absorbPair
  refine ⟨h1, h2.trans ?_⟩
  simp only [PState.num, a2, b2]

theorem finishMany_none {s : PState} (hs : s.Ok) : Elem .felt (finishMany s none) ∧
    num (finishMany s none) = (Spec.absorb roundConst s.num [1, 0]).1 := by
  obtain ⟨a1, a2⟩ := num_add hs.s0 num_one.1
  obtain ⟨h1, h2⟩ := C32_permute (s := ⟨add fieldMod s.s0 montOne, s.s1, s.s2⟩) ⟨a1, hs.s1, hs.s2⟩
  unfold finishMany
  refine ⟨h1.s0, (congrArg Prod.fst h2).trans ?_⟩
  simp only [PState.num, a2, num_one.2, Spec.absorb, add_zero]

theorem finishMany_some {s : PState} (hs : s.Ok) {a : Limbs} (ha : Elem .felt a) : Elem .felt (finishMany s (some a)) ∧
    num (finishMany s (some a)) = (Spec.absorb roundConst s.num [num a, 1]).1 := by
  obtain ⟨a1, a2⟩ := num_add hs.s0 ha
  obtain ⟨b1, b2⟩ := num_add hs.s1 num_one.1
  obtain ⟨h1, h2⟩ := C32_permute (s := ⟨add fieldMod s.s0 a, add fieldMod s.s1 montOne, s.s2⟩) ⟨a1, b1, hs.s2⟩
  unfold finishMany
  refine ⟨h1.s0, (congrArg Prod.fst h2).trans ?_⟩
  simp only [PState.num, a2, b2, num_one.2, Spec.absorb]

theorem pad_cons (x y : Spec.F) (l : List Spec.F) : Spec.pad (x :: y :: l) = x :: y :: Spec.pad l := by
  unfold Spec.pad
  have e : (x :: y :: l).length = l.length + 1 + 1 := rfl
  by_cases h : l.length % 2 = 0
  · rw [if_pos h, if_pos (by omega)]; rfl
  · rw [if_neg h, if_neg (by omega)]; rfl

theorem hashMany_loop {l : List Limbs} (hl : ∀ x ∈ l, Elem .felt x) {s : PState} (hs : s.Ok) :
    Elem .felt (finishMany ((chunks2 l).foldl absorbPair s) (remainder2 l)) ∧
    num (finishMany ((chunks2 l).foldl absorbPair s) (remainder2 l)) =
      (Spec.absorb roundConst s.num (Spec.pad (l.map num))).1 := by
  induction l using List.twoStepInduction generalizing s with
  | nil => exact finishMany_none hs
  | singleton a => exact finishMany_some hs (hl a (by simp))
  | cons_cons a b l ih _ =>
    obtain ⟨h1, h2⟩ := absorbPair_spec hs (hl a (by simp)) (hl b (by simp))
    obtain ⟨h3, h4⟩ := ih (fun x hx => hl x (by simp [hx])) h1
    rw [chunks2, remainder2, List.foldl_cons, List.map_cons, List.map_cons, pad_cons, Spec.absorb]
    refine ⟨h3, h4.trans ?_⟩
    rw [h2]

/-- `poseidon_hash_many` is the sponge over the padded list. -/
theorem C32_hash_many {l : List Limbs} (hl : ∀ x ∈ l, Elem .felt x) :
    Elem .felt (poseidonHashMany l) ∧ num (poseidonHashMany l) = Spec.hashMany roundConst (l.map num) := by
  obtain ⟨h1, h2⟩ := hashMany_loop hl (s := ⟨zero, zero, zero⟩) ⟨num_zero.1, num_zero.1, num_zero.1⟩
  unfold poseidonHashMany
  refine ⟨h1, h2.trans ?_⟩
  simp only [PState.num, num_zero.2, Spec.hashMany]

/-- `poseidon_hash` is the permutation of the pair and two. -/
theorem C32_hash_two {x y : Limbs} (hx : Elem .felt x) (hy : Elem .felt y) :
    Elem .felt (poseidonHash x y) ∧ num (poseidonHash x y) = Spec.hashTwo roundConst (num x) (num y) := by
  obtain ⟨h1, h2⟩ := C32_permute (s := ⟨x, y, montTwo⟩) ⟨hx, hy, num_two.1⟩
  unfold poseidonHash
  refine ⟨h1.s0, (congrArg Prod.fst h2).trans ?_⟩
  simp only [PState.num, num_two.2, Spec.hashTwo]

end

/-- Different lists, of the same length or not, are padded differently: no two lists are absorbed as the same blocks. -/
theorem C32_padding {l r : List Spec.F} (h : Spec.pad l = Spec.pad r) : l = r := by
  have one_ne : (1 : Spec.F) ≠ 0 := one_ne_zero
  unfold Spec.pad at h
  split at h <;> split at h
  · exact List.append_cancel_right h
  · next h1 h2 =>
    have h3 : l ++ [1, 0] = (l ++ [1]) ++ [0] := by simp
    rw [h3] at h
    have := (List.append_inj' h rfl).2
    simp at this
  · next h1 h2 =>
    have h3 : r ++ [1, 0] = (r ++ [1]) ++ [0] := by simp
    rw [h3] at h
    have := (List.append_inj' h rfl).2
    simp at this
  · exact List.append_cancel_right h

/-- A concrete case, the test vector of `permutation.rs`: the permutation of zeros. -/
example : (let t := permute ⟨zero, zero, zero⟩; [value .felt t.s0, value .felt t.s1, value .felt t.s2]) =
    [0x79E8D1E78258000A28FC9D49E233BC6852357968577B1E386550ED6A9086133,
     0x3840D003D0F3F96DBB796FF6AA6A63BE5B5404B91CCAABCA256154CBB6FB984,
     0x1EB39DA3F7D3B04142D0AC83D9DA00C9325A61FB2EF326E50B70EAA8A3C7CC7] := by decide +kernel

/-- A concrete case, the test vector of `hash.rs`: the hash of the empty list. -/
example : value .felt (poseidonHashMany []) = 0x2272be0f580fd156823304800919530eaa97430e972d7213ee13f4fbf7a5dbc := by
  decide +kernel

end Verif.Crypto
