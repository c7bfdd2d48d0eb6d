import Verif.Shown.Spec
/-!
# Lemmas on numbers as text
-/
namespace Verif.Shown
open Verif.Shown.Spec (digit all value number Canonical digitsOf)

theorem digit_lut : ∀ d, d < 16 → digit (lut d) = some d := by decide

theorem all_map {α β : Type} (f : α → Option β) (g : β → α) : ∀ (l : List β), (∀ x ∈ l, f (g x) = some x) → all f (l.map g) = some l
  | [], _ => rfl
  | x :: xs, h => by
    simp only [List.map_cons, all, h x (by simp), Option.bind_some, all_map f g xs (fun y hy => h y (by simp [hy])), Option.map_some]

theorem all_append {α β : Type} (f : α → Option β) : ∀ (l m : List α),
    all f (l ++ m) = (all f l).bind fun a => (all f m).map (a ++ ·)
  | [], m => by cases h : all f m <;> simp [all, h]
  | x :: xs, m => by
    simp only [List.cons_append, all, all_append f xs m]
    cases f x <;> cases all f xs <;> cases all f m <;> rfl

theorem value_append (b : Nat) : ∀ (l m : List Nat), value b (l ++ m) = value b l * b ^ m.length + value b m
  | [], m => by simp [value]
  | x :: xs, m => by
    simp only [List.cons_append, value, value_append b xs m, List.length_append, Nat.pow_add, Nat.add_mul]
    rw [Nat.mul_assoc, Nat.add_assoc]

/-- The digits of bytes. -/
def nibbles (l : List Nat) : List Nat := l.flatMap fun b => [b / 16, b % 16]

theorem nibbles_length : ∀ l : List Nat, (nibbles l).length = 2 * l.length
  | [] => rfl
  | b :: l => by
    have := nibbles_length l
    simp only [nibbles, List.flatMap_cons, List.length_append, List.length_cons, List.length_nil] at this ⊢
    omega

theorem value_nibbles : ∀ l : List Nat, value 16 (nibbles l) = value 256 l
  | [] => rfl
  | b :: l => by
    have h := value_nibbles l
    have hl := nibbles_length l
    have e : nibbles (b :: l) = [b / 16, b % 16] ++ nibbles l := by simp [nibbles]
    rw [e, value_append, h, hl]
    simp only [value, List.length_cons, List.length_nil]
    have h256 : 16 ^ (2 * l.length) = 256 ^ l.length := by rw [Nat.pow_mul]
    rw [h256]
    have : (b / 16 * 16 ^ (0 + 1) + (b % 16 * 16 ^ 0 + 0)) = b := by omega
    rw [this]

theorem all_digits : ∀ (l : List Nat), (∀ b ∈ l, b < 256) → all digit (l.flatMap twoDigits) = some (nibbles l)
  | [], _ => rfl
  | b :: l, h => by
    have hb := h b (by simp)
    have ih := all_digits l fun x hx => h x (by simp [hx])
    simp only [List.flatMap_cons, twoDigits, List.cons_append, List.nil_append, all, digit_lut (b / 16) (by omega),
      digit_lut (b % 16) (by omega), Option.bind_some]
    rw [ih]
    rfl

theorem beBytes_lt : ∀ (w n b : Nat), b ∈ beBytes w n → b < 256
  | 0, _, _, h => by simp [beBytes] at h
  | w + 1, n, b, h => by
    simp only [beBytes, List.mem_append, List.mem_singleton] at h
    rcases h with h | h
    · exact beBytes_lt w _ b h
    · omega

theorem beBytes_length : ∀ (w n : Nat), (beBytes w n).length = w
  | 0, _ => rfl
  | w + 1, n => by simp [beBytes, beBytes_length w]

theorem value_beBytes : ∀ (w n : Nat), n < 256 ^ w → value 256 (beBytes w n) = n
  | 0, n, h => by simp only [Nat.pow_zero, Nat.lt_one_iff] at h; subst h; rfl
  | w + 1, n, h => by
    have : n / 256 < 256 ^ w := by rw [Nat.pow_succ] at h; omega
    simp only [beBytes, value_append, value_beBytes w _ this, value, List.length_cons, List.length_nil]
    omega

theorem value_drop : ∀ l : List Nat, value 256 (l.dropWhile (· == 0)) = value 256 l
  | [] => rfl
  | b :: l => by
    by_cases h : b = 0
    · subst h
      simp only [List.dropWhile_cons, beq_self_eq_true, if_true, value_drop l, value, Nat.zero_mul, Nat.zero_add]
    · simp [h]

theorem drop_mem (l : List Nat) {b : Nat} (h : b ∈ l.dropWhile (· == 0)) : b ∈ l :=
  (List.dropWhile_suffix (l := l) (· == 0)).subset h

theorem drop_head : ∀ (l : List Nat) {b : Nat} {bs : List Nat}, l.dropWhile (· == 0) = b :: bs → b ≠ 0
  | [], _, _, h => by simp at h
  | a :: l, b, bs, h => by
    by_cases ha : a = 0
    · subst ha
      simp only [List.dropWhile_cons, beq_self_eq_true, if_true] at h
      exact drop_head l h
    · simp only [List.dropWhile_cons, beq_iff_eq, ha, if_false] at h
      have := (List.cons.inj h).1
      omega

theorem all_of_drop : ∀ l : List Nat, l.dropWhile (· == 0) = [] → l.all (· == 0) = true
  | [], _ => rfl
  | a :: l, h => by
    by_cases ha : a = 0
    · subst ha
      simp only [List.dropWhile_cons, beq_self_eq_true, if_true] at h
      simpa using all_of_drop l h
    · simp [ha] at h

/-- The text of bytes is the number that they are. -/
theorem number_stripped (l : List Nat) (h : ∀ b ∈ l, b < 256) : number (hexStripped l) = some (value 256 l) := by
  rw [← value_drop l]
  unfold hexStripped
  cases e : l.dropWhile (· == 0) with
  | nil => rfl
  | cons b bs =>
    have hm : ∀ x ∈ b :: bs, x < 256 := fun x hx => h x (drop_mem l (e ▸ hx))
    have hb : b < 256 := hm b (by simp)
    have hd := all_digits bs fun x hx => hm x (by simp [hx])
    by_cases hz : b / 16 = 0
    · have hz' : (b / 16 == 0) = true := by simp [hz]
      have hv : b % 16 * 16 ^ (nibbles bs).length + value 16 (nibbles bs) = value 256 (b :: bs) := by
        rw [value_nibbles, nibbles_length, show 16 ^ (2 * bs.length) = 256 ^ bs.length by rw [Nat.pow_mul]]
        simp only [value]
        have : b % 16 = b := by omega
        rw [this]
      simp only [hz', toHexStr, number, all, digit_lut (b % 16) (by omega), Option.bind_some, hd, Option.map_some, value, hv]
    · have hz' : (b / 16 == 0) = false := by simp [hz]
      have hd' := all_digits (b :: bs) hm
      have hc : (b :: bs).flatMap twoDigits = lut (b / 16) :: lut (b % 16) :: bs.flatMap twoDigits := by simp [twoDigits]
      simp only [hz', toHexStr]
      rw [hc] at hd' ⊢
      simp only [number, hd', Option.map_some, value_nibbles]

/-- The two ways to write bytes give the same text. -/
theorem serde_stripped (l : List Nat) (h : ∀ b ∈ l, b < 256) : hexSerde l = hexStripped l := by
  unfold hexSerde hexStripped
  cases e : l.dropWhile (· == 0) with
  | nil =>
    have : l.all (· == 0) = true := by
      exact all_of_drop l e
    simp [this]
  | cons b bs =>
    have hb0 := drop_head l e
    have hb : b ∈ l := drop_mem l (e ▸ List.mem_cons_self)
    have hlt := h b hb
    have : l.all (· == 0) = false := by
      rw [List.all_eq_false]
      exact ⟨b, hb, by simp [hb0]⟩
    simp only [this, Bool.false_eq_true, if_false, List.headD_cons]
    by_cases hz : b < 16
    · have hz' : (b / 16 == 0) = true := by simp; omega
      simp [hz, hz', toHexStr, twoDigits]
    · have hz' : (b / 16 == 0) = false := by simp; omega
      simp [hz, hz', toHexStr, twoDigits]

theorem hexF_number (x : Verif.Block.F) : number (hexStripped (beBytes 32 x.val)) = some x.val := by
  rw [number_stripped _ (beBytes_lt 32 _), value_beBytes]
  have := x.isLt
  have hP : Verif.Block.P < 256 ^ 32 := by decide
  omega

/-! ## Canonical text -/

theorem lut_mem : ∀ d, d < 16 → lut d ∈ "0123456789abcdef".toList := by decide

theorem lut_ne_zero : ∀ d, d < 16 → d ≠ 0 → lut d ≠ '0' := by decide

theorem digits_mem (l : List Nat) (h : ∀ b ∈ l, b < 256) : ∀ c ∈ l.flatMap twoDigits, c ∈ "0123456789abcdef".toList := by
  intro c hc
  obtain ⟨b, hb, hc⟩ := List.mem_flatMap.mp hc
  have := h b hb
  simp only [twoDigits, List.mem_cons, List.not_mem_nil, or_false] at hc
  rcases hc with rfl | rfl
  · exact lut_mem _ (by omega)
  · exact lut_mem _ (by omega)

theorem stripped_canonical (l : List Nat) (h : ∀ b ∈ l, b < 256) : Canonical (hexStripped l) := by
  unfold hexStripped
  cases e : l.dropWhile (· == 0) with
  | nil => exact .inl rfl
  | cons b bs =>
    have hm : ∀ x ∈ b :: bs, x < 256 := fun x hx => h x (drop_mem l (e ▸ hx))
    have hb : b < 256 := hm b (by simp)
    have hb0 := drop_head l e
    have hd := digits_mem bs fun x hx => hm x (by simp [hx])
    right
    by_cases hz : b / 16 = 0
    · have hz' : (b / 16 == 0) = true := by simp [hz]
      refine ⟨lut (b % 16), bs.flatMap twoDigits, by simp [hz', toHexStr], lut_ne_zero _ (by omega) (by omega), ?_⟩
      intro c hc
      rcases List.mem_cons.mp hc with rfl | hc
      · exact lut_mem _ (by omega)
      · exact hd c hc
    · have hz' : (b / 16 == 0) = false := by simp [hz]
      refine ⟨lut (b / 16), lut (b % 16) :: bs.flatMap twoDigits, by simp [hz', toHexStr, twoDigits],
        lut_ne_zero _ (by omega) hz, ?_⟩
      intro c hc
      rcases List.mem_cons.mp hc with rfl | hc
      · exact lut_mem _ (by omega)
      · rcases List.mem_cons.mp hc with rfl | hc
        · exact lut_mem _ (by omega)
        · exact hd c hc

/-! ## Reading -/

theorem ofBytes_value (l : List Nat) : ofBytes l = value 256 l := by
  have h : ∀ (l : List Nat) (a : Nat), l.foldl (fun a b => a * 256 + b) a = a * 256 ^ l.length + value 256 l := by
    intro l
    induction l with
    | nil => intro a; simp [value]
    | cons b l ih =>
      intro a
      simp only [List.foldl_cons, ih, value, List.length_cons, Nat.pow_succ, Nat.add_mul]
      rw [Nat.mul_assoc, Nat.mul_comm 256, Nat.add_assoc]
  simpa [ofBytes] using h l 0

theorem foldl16_value (l : List Nat) : l.foldl (fun a x => a * 16 + x) 0 = value 16 l := by
  have h : ∀ (l : List Nat) (a : Nat), l.foldl (fun a b => a * 16 + b) a = a * 16 ^ l.length + value 16 l := by
    intro l
    induction l with
    | nil => intro a; simp [value]
    | cons b l ih =>
      intro a
      simp only [List.foldl_cons, ih, value, List.length_cons, Nat.pow_succ, Nat.add_mul]
      rw [Nat.mul_assoc, Nat.mul_comm 16, Nat.add_assoc]
  simpa using h l 0

theorem value_pairUp : ∀ l : List Nat, value 256 (pairUp l).reverse = value 16 l.reverse
  | [] => rfl
  | [x] => by simp [pairUp, value]
  | lo :: hi :: r => by
    have ih := value_pairUp r
    simp only [pairUp, List.reverse_cons, List.append_assoc, value_append, ih]
    simp only [value, List.length_cons, List.length_nil, List.singleton_append]
    omega

theorem pairUp_length : ∀ l : List Nat, (pairUp l).length = (l.length + 1) / 2
  | [] => rfl
  | [x] => by simp [pairUp]
  | lo :: hi :: r => by simp only [pairUp, List.length_cons, pairUp_length r]; omega

theorem value_zeros : ∀ n : Nat, value 256 (List.replicate n 0) = 0
  | 0 => rfl
  | n + 1 => by simp [List.replicate_succ, value, value_zeros n]

theorem parseDigit_spec (c : Char) : parseDigit c = digit c := by
  unfold parseDigit
  have hle : ∀ a b : Char, a ≤ b ↔ a.toNat ≤ b.toNat := fun a b => Iff.rfl
  simp only [hle]
  have hc : ∀ n, c.toNat = n → c = Char.ofNat n := fun n h => by rw [← h, Char.ofNat_toNat]
  have hall : ∀ n, n < 128 → (if '0'.toNat ≤ n ∧ n ≤ '9'.toNat then some (n - '0'.toNat)
      else if 'A'.toNat ≤ n ∧ n ≤ 'F'.toNat then some (n - 'A'.toNat + 10)
      else if 'a'.toNat ≤ n ∧ n ≤ 'f'.toNat then some (n - 'a'.toNat + 10) else none) = digit (Char.ofNat n) := by decide +kernel
  by_cases h : c.toNat < 128
  · rw [hall _ h, Char.ofNat_toNat]
  · have h1 : '0'.toNat = 48 := rfl
    have h2 : '9'.toNat = 57 := rfl
    have h3 : 'A'.toNat = 65 := rfl
    have h4 : 'F'.toNat = 70 := rfl
    have h5 : 'a'.toNat = 97 := rfl
    have h6 : 'f'.toNat = 102 := rfl
    rw [if_neg (by omega), if_neg (by omega), if_neg (by omega)]
    have hn : ∀ l : List Char, (∀ x ∈ l, x.toNat < 128) → l.idxOf? c = none := by
      intro l hl
      rw [List.idxOf?_eq_none_iff]
      intro hc
      exact h (hl c hc)
    simp only [digit, List.findSome?_cons, List.findSome?_nil]
    rw [hn _ (by decide), hn _ (by decide)]

theorem parseDigits_spec : ∀ s : List Char, parseDigits s = all digit s
  | [] => rfl
  | c :: cs => by
    simp only [parseDigits, all, parseDigit_spec, parseDigits_spec cs]
    cases digit c <;> cases all digit cs <;> rfl

theorem all_length {α β : Type} (f : α → Option β) : ∀ (l : List α) {m : List β}, all f l = some m → m.length = l.length
  | [], m, h => by simp only [all, Option.some.injEq] at h; subst h; rfl
  | x :: xs, m, h => by
    simp only [all] at h
    cases hx : f x with
    | none => simp [hx] at h
    | some v =>
      cases hs : all f xs with
      | none => simp [hx, hs] at h
      | some vs =>
        simp only [hx, hs, Option.bind_some, Option.map_some, Option.some.injEq] at h
        subst h
        simp [all_length f xs hs]

/-! ## Reading -/

theorem fromHexStr_eq (n : Nat) (s : List Char) : fromHexStr n s =
    if (digitsOf s).length > 2 * n then none
    else (all digit (digitsOf s)).map fun d => List.replicate (n - ((pairUp d.reverse).reverse).length) 0 ++ (pairUp d.reverse).reverse := by
  unfold fromHexStr
  simp only [parseDigits_spec]
  rfl

theorem fromHexStr_value (n : Nat) (s : List Char) : (fromHexStr n s).map ofBytes =
    if (digitsOf s).length ≤ 2 * n then (all digit (digitsOf s)).map (value 16) else none := by
  rw [fromHexStr_eq]
  by_cases h : (digitsOf s).length ≤ 2 * n
  · rw [if_neg (by omega), if_pos h, Option.map_map]
    congr 1
    funext d
    simp only [Function.comp, ofBytes_value, value_append, value_zeros, Nat.zero_mul, Nat.zero_add, value_pairUp, List.reverse_reverse]
  · rw [if_pos (by omega), if_neg h]
    rfl

theorem twoDigits_length : ∀ l : List Nat, (l.flatMap twoDigits).length = 2 * l.length
  | [] => rfl
  | b :: l => by
    have := twoDigits_length l
    simp only [List.flatMap_cons, twoDigits, List.length_append, List.length_cons, List.length_nil] at this ⊢
    omega

theorem stripped_length (l : List Nat) (h : l ≠ []) : (hexStripped l).length ≤ 2 * l.length + 2 := by
  have hl : 0 < l.length := List.length_pos_iff.mpr h
  have hd := (List.dropWhile_suffix (l := l) (· == 0)).length_le
  unfold hexStripped
  cases e : l.dropWhile (· == 0) with
  | nil => simp; omega
  | cons b bs =>
    rw [e] at hd
    have h2 := twoDigits_length bs
    have h3 := twoDigits_length (b :: bs)
    simp only [List.length_cons] at hd h3
    show (toHexStr (b :: bs) (b / 16 == 0)).length ≤ _
    cases b / 16 == 0 <;> simp only [toHexStr, List.length_cons] <;> omega

theorem stripped_digits (w n : Nat) (hw : 0 < w) (h : n < 256 ^ w) :
    (digitsOf (hexStripped (beBytes w n))).length ≤ 2 * w ∧ (all digit (digitsOf (hexStripped (beBytes w n)))).map (value 16) = some n ∧
      (digitsOf (hexStripped (beBytes w n))).head? ≠ some '+' ∧ ∃ d ds, hexStripped (beBytes w n) = '0' :: 'x' :: d :: ds := by
  have hn : number (hexStripped (beBytes w n)) = some n := by rw [number_stripped _ (beBytes_lt w n), value_beBytes w n h]
  have hl := stripped_length (beBytes w n) (by intro e; have := beBytes_length w n; rw [e] at this; simp at this; omega)
  rw [beBytes_length] at hl
  obtain ⟨d, ds, e⟩ : ∃ d ds, hexStripped (beBytes w n) = '0' :: 'x' :: d :: ds := by
    rcases stripped_canonical _ (beBytes_lt w n) with e | ⟨d, ds, e, -⟩
    · exact ⟨_, _, e⟩
    · exact ⟨d, ds, e⟩
  rw [e] at hn hl ⊢
  simp only [number] at hn
  simp only [List.length_cons] at hl
  refine ⟨by simp only [digitsOf, List.length_cons]; omega, hn, ?_, d, ds, rfl⟩
  simp only [digitsOf, List.head?_cons, ne_eq, Option.some.injEq]
  rintro rfl
  have : digit '+' = none := by decide
  simp [all, this] at hn

end Verif.Shown
