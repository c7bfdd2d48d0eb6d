import Verif.Class.HashPrep
/-! # Lemmas comparing the text that is hashed with Python's -/
namespace Verif.Class

/-! ## Characters -/

theorem hexPadded_large {n : Nat} (h : 0x1000 ≤ n) (h' : n < 65536) : hexPadded n = hexFour n := by
  have h1 : ¬ n < 16 := by omega
  have h2 : ¬ n / 16 < 16 := by omega
  have h3 : ¬ n / 16 / 16 < 16 := by omega
  have h4 : n / 16 / 16 / 16 < 16 := by omega
  have e1 : n / 16 / 16 / 16 = n / 4096 % 16 := by omega
  have e2 : n / 16 / 16 % 16 = n / 256 % 16 := by omega
  have : hexPadded n = [hexDigit (n / 16 / 16 / 16), hexDigit (n / 16 / 16 % 16), hexDigit (n / 16 % 16), hexDigit (n % 16)] := by
    simp [hexPadded, hexNat_step h1, hexNat_step h2, hexNat_step h3, hexNat_small h4]
  rw [this, e1, e2, hexFour]

theorem hexPadded_space {n : Nat} (h : n < 0x1000) : ∃ b c d, hexPadded n = [' ', b, c, d] := by
  by_cases h1 : n < 16
  · exact ⟨_, _, _, by simp [hexPadded, hexNat_small h1, List.replicate]; exact ⟨rfl, rfl, rfl⟩⟩
  · by_cases h2 : n / 16 < 16
    · exact ⟨_, _, _, by simp [hexPadded, hexNat_step h1, hexNat_small h2, List.replicate]; exact ⟨rfl, rfl, rfl⟩⟩
    · have h3 : n / 16 / 16 < 16 := by omega
      exact ⟨_, _, _, by simp [hexPadded, hexNat_step h1, hexNat_step h2, hexNat_small h3]; exact ⟨rfl, rfl, rfl⟩⟩

theorem hexDigit_ne_space {n : Nat} (h : n < 16) : hexDigit n ≠ ' ' := by
  apply char_ne
  rw [hexDigit_toNat h]
  have : ' '.toNat = 32 := rfl
  split <;> omega

theorem hexPadded_small_ne {n : Nat} (h : n < 0x1000) : hexPadded n ≠ hexFour n := by
  obtain ⟨b, c, d, e⟩ := hexPadded_space h
  rw [e, hexFour]
  intro h
  simp only [List.cons.injEq] at h
  exact hexDigit_ne_space (by omega) h.1.symm

theorem hexPadded_length {n : Nat} (h : n < 65536) : (hexPadded n).length = 4 := by
  obtain ⟨a, b, c, d, e, _⟩ := hexPadded_four h
  rw [e]; rfl

theorem large_units (n : Nat) (h : ¬ n < 0x10000) (h' : n < 0x110000) :
    0x1000 ≤ 0xd800 + (n - 0x10000) / 0x400 ∧ 0xd800 + (n - 0x10000) / 0x400 < 65536 ∧ 0x1000 ≤ 0xdc00 + (n - 0x10000) % 0x400 := by omega

theorem units_pair {m n : Nat} (hm : 0x1000 ≤ m) (hm' : m < 65536) (hn : 0x1000 ≤ n) (hn' : n < 65536) :
    [m, n].flatMap (fun u => '\\' :: 'u' :: hexPadded u) = [m, n].flatMap (fun u => '\\' :: 'u' :: hexFour u) := by
  simp only [List.flatMap_cons, List.flatMap_nil, List.append_nil]
  rw [hexPadded_large hm hm', hexPadded_large hn hn']

theorem printable_iff (c : Char) : (' ' ≤ c ∧ c ≤ '~') ↔ 32 ≤ c.toNat ∧ c.toNat ≤ 126 := Iff.rfl

/-- Outside U+007F to U+0FFF the two agree. -/
theorem escape_plain {c : Char} (h : ¬ Odd c) : escape c = pyEscape c := by
  unfold escape pyEscape
  split
  · rfl
  split
  · rfl
  iterate 5
    split
    · rfl
  have hodd : ¬ (0x7f ≤ c.toNat ∧ c.toNat < 0x1000) := h
  by_cases h1 : c.toNat < 32
  · rw [if_pos h1, if_neg (by rw [printable_iff]; omega), utf16_small (by omega)]
    simp only [List.flatMap_cons, List.flatMap_nil, List.append_nil, hexFour]
    rw [show c.toNat / 4096 % 16 = 0 by omega, show c.toNat / 256 % 16 = 0 by omega, show c.toNat / 16 % 16 = c.toNat / 16 by omega]
    rfl
  · rw [if_neg h1]
    by_cases h2 : c.toNat < 128
    · rw [fragmentChar, if_pos h2, if_pos (by rw [printable_iff]; omega)]
    · rw [fragmentChar, if_neg h2, if_neg (by rw [printable_iff]; omega)]
      by_cases h3 : c.toNat < 0x10000
      · rw [utf16_small h3]
        simp only [List.flatMap_cons, List.flatMap_nil, List.append_nil]
        rw [hexPadded_large (by omega) h3]
      · rw [utf16_large h3]
        have hu := large_units _ h3 (toNat_lt c)
        exact units_pair hu.1 hu.2.1 hu.2.2 (low_lt _)

theorem escape_odd {c : Char} (h : Odd c) : escape c = fragmentChar c ∧ pyEscape c = '\\' :: 'u' :: hexFour c.toNat := by
  have h : 0x7f ≤ c.toNat ∧ c.toNat < 0x1000 := h
  have n1 : c ≠ '"' := by apply char_ne; have : '"'.toNat = 34 := rfl; omega
  have n2 : c ≠ '\\' := by apply char_ne; have : '\\'.toNat = 92 := rfl; omega
  unfold escape pyEscape
  constructor
  · rw [if_neg n1, if_neg n2, if_neg (by omega), if_neg (by omega), if_neg (by omega), if_neg (by omega), if_neg (by omega), if_neg (by omega)]
  · rw [if_neg n1, if_neg n2, if_neg (by omega), if_neg (by omega), if_neg (by omega), if_neg (by omega), if_neg (by omega),
      if_neg (by rw [printable_iff]; omega), utf16_small (by omega)]
    simp

theorem escape_odd_ne {c : Char} (h : Odd c) : escape c ≠ pyEscape c := by
  obtain ⟨e1, e2⟩ := escape_odd h
  rw [e1, e2, fragmentChar]
  split
  · simp
  · rw [utf16_small (by have : c.toNat < 0x1000 := h.2; omega)]
    simp only [List.flatMap_cons, List.flatMap_nil, List.append_nil]
    intro e
    simp only [List.cons.injEq, true_and] at e
    exact hexPadded_small_ne h.2 e

theorem escape_length (c : Char) : (escape c).length ≤ (pyEscape c).length := by
  by_cases h : Odd c
  · obtain ⟨e1, e2⟩ := escape_odd h
    rw [e1, e2, fragmentChar]
    split
    · simp
    · have hb : c.toNat < 65536 := by have : c.toNat < 0x1000 := h.2; omega
      rw [utf16_small hb]
      simp [hexPadded_length hb, hexFour]
  · rw [escape_plain h]; exact Nat.le_refl _

/-! ## Strings -/

theorem parts_eq {s t u v : Str} (h1 : s.length ≤ t.length) (h2 : u.length ≤ v.length) (e : s ++ u = t ++ v) : s = t ∧ u = v := by
  have hl := congrArg List.length e
  simp only [List.length_append] at hl
  exact List.append_inj e (by omega)

theorem escapes_length (s : Str) : (s.flatMap escape).length ≤ (s.flatMap pyEscape).length := by
  induction s with
  | nil => simp
  | cons c s ih =>
    simp only [List.flatMap_cons, List.length_append]
    have := escape_length c
    omega

theorem escapes_plain (s : Str) : s.flatMap escape = s.flatMap pyEscape ↔ ∀ c ∈ s, ¬ Odd c := by
  constructor
  · induction s with
    | nil => simp
    | cons c s ih =>
      intro h
      simp only [List.flatMap_cons] at h
      obtain ⟨h1, h2⟩ := parts_eq (escape_length c) (escapes_length s) h
      intro d hd
      rcases List.mem_cons.mp hd with rfl | hd
      · exact fun ho => escape_odd_ne ho h1
      · exact ih h2 d hd
  · intro h
    induction s with
    | nil => rfl
    | cons c s ih =>
      simp only [List.flatMap_cons]
      rw [escape_plain (h c (by simp)), ih fun d hd => h d (by simp [hd])]

theorem quote_length (s : Str) : (quote s).length ≤ (pyString s).length := by
  have := escapes_length s
  simp only [quote, pyString, List.length_cons, List.length_append, List.length_nil]; omega

theorem quote_plain (s : Str) : quote s = pyString s ↔ ∀ c ∈ s, ¬ Odd c := by
  rw [← escapes_plain]
  simp [quote, pyString]

/-! ## Values -/

/-- Python's text in the order of the formatter. -/
def pyRest : List Json → Str
  | [] => [']']
  | x :: l => sep ++ (pyJson x ++ pyRest l)
def pyMore : List (Str × Json) → Str
  | [] => ['}']
  | (k, v) :: l => sep ++ (pyString k ++ (colon ++ (pyJson v ++ pyMore l)))

theorem intercalate_step (s x y : Str) (l : List Str) : List.intercalate s (x :: y :: l) = x ++ (s ++ List.intercalate s (y :: l)) := by
  simp [List.intercalate, List.intersperse]

theorem pyItems_cons (x : Json) (l : List Json) : List.intercalate ", ".toList (pyItems (x :: l)) ++ [']'] = pyJson x ++ pyRest l := by
  induction l generalizing x with
  | nil => simp [pyItems, pyRest, List.intercalate]
  | cons y l ih =>
    rw [pyItems, pyItems, intercalate_step, List.append_assoc, List.append_assoc, ← pyItems, ih y, pyRest]
    rfl

theorem pyFields_cons (k : Str) (v : Json) (l : List (Str × Json)) :
    List.intercalate ", ".toList (pyFields ((k, v) :: l)) ++ ['}'] = pyString k ++ (colon ++ (pyJson v ++ pyMore l)) := by
  induction l generalizing k v with
  | nil => simp [pyFields, pyMore, List.intercalate, colon]
  | cons f l ih =>
    obtain ⟨k', v'⟩ := f
    rw [pyFields, pyFields, intercalate_step, ← pyFields, pyMore, ← ih k' v']
    simp only [List.append_assoc]
    rfl

theorem pyArr_nil : pyJson (.arr []) = ['[', ']'] := by simp [pyJson, pyItems, List.intercalate]
theorem pyArr_cons (x : Json) (l : List Json) : pyJson (.arr (x :: l)) = '[' :: (pyJson x ++ pyRest l) := by
  rw [pyJson, List.append_assoc, pyItems_cons]; rfl
theorem pyObj_nil : pyJson (.obj []) = ['{', '}'] := by simp [pyJson, pyFields, List.intercalate]
theorem pyObj_cons (k : Str) (v : Json) (l : List (Str × Json)) :
    pyJson (.obj ((k, v) :: l)) = '{' :: (pyString k ++ (colon ++ (pyJson v ++ pyMore l))) := by
  rw [pyJson, List.append_assoc, pyFields_cons]; rfl

mutual
theorem print_length : ∀ j : Json, (printJson j).length ≤ (pyJson j).length
  | .null => by simp [printJson, pyJson]
  | .bool b => by cases b <;> simp [printJson, pyJson]
  | .num t => by simp [printJson, pyJson]
  | .str s => by rw [printJson, pyJson]; exact quote_length s
  | .arr [] => by rw [pyArr_nil]; simp [printJson, printItems]
  | .arr (x :: l) => by
    have h1 := print_length x; have h2 := rest_length l
    rw [pyArr_cons, printJson, printItems]; simp only [List.length_cons, List.length_append]; omega
  | .obj [] => by rw [pyObj_nil]; simp [printJson, printFields]
  | .obj ((k, v) :: l) => by
    have h1 := print_length v; have h2 := more_length l; have h3 := quote_length k
    rw [pyObj_cons, printJson, printFields]; simp only [List.length_cons, List.length_append]; omega
theorem rest_length : ∀ l : List Json, (printRest l).length ≤ (pyRest l).length
  | [] => by simp [printRest, pyRest]
  | x :: l => by
    have h1 := print_length x; have h2 := rest_length l
    rw [printRest, pyRest]; simp only [List.length_append]; omega
theorem more_length : ∀ l : List (Str × Json), (printMore l).length ≤ (pyMore l).length
  | [] => by simp [printMore, pyMore]
  | (k, v) :: l => by
    have h1 := print_length v; have h2 := more_length l; have h3 := quote_length k
    rw [printMore, pyMore]; simp only [List.length_append]; omega
end

mutual
theorem print_plain : ∀ j : Json, printJson j = pyJson j ↔ j.Plain
  | .null => by simp [printJson, pyJson, Json.Plain]
  | .bool b => by cases b <;> simp [printJson, pyJson, Json.Plain]
  | .num t => by simp [printJson, pyJson, Json.Plain]
  | .str s => by rw [printJson, pyJson, Json.Plain]; exact quote_plain s
  | .arr [] => by rw [pyArr_nil]; simp [printJson, printItems, Json.Plain, ItemsPlain]
  | .arr (x :: l) => by
    rw [pyArr_cons, printJson, printItems, Json.Plain, ItemsPlain, ← print_plain x, ← rest_plain l]
    constructor
    · intro h
      simp only [List.cons.injEq, true_and] at h
      exact parts_eq (print_length x) (rest_length l) h
    · rintro ⟨h1, h2⟩; rw [h1, h2]
  | .obj [] => by rw [pyObj_nil]; simp [printJson, printFields, Json.Plain, FieldsPlain]
  | .obj ((k, v) :: l) => by
    rw [pyObj_cons, printJson, printFields, Json.Plain, FieldsPlain, ← print_plain v, ← more_plain l, ← quote_plain]
    constructor
    · intro h
      simp only [List.cons.injEq, true_and] at h
      obtain ⟨h1, h2⟩ := parts_eq (quote_length k) (by
        have := print_length v; have := more_length l; simp only [List.length_append]; omega) h
      exact ⟨h1, parts_eq (print_length v) (more_length l) (List.append_cancel_left h2)⟩
    · rintro ⟨h1, h2, h3⟩; rw [h1, h2, h3]
theorem rest_plain : ∀ l : List Json, printRest l = pyRest l ↔ ItemsPlain l
  | [] => by simp [printRest, pyRest, ItemsPlain]
  | x :: l => by
    rw [printRest, pyRest, ItemsPlain, ← print_plain x, ← rest_plain l]
    constructor
    · intro h
      exact parts_eq (print_length x) (rest_length l) (List.append_cancel_left h)
    · rintro ⟨h1, h2⟩; rw [h1, h2]
theorem more_plain : ∀ l : List (Str × Json), printMore l = pyMore l ↔ FieldsPlain l
  | [] => by simp [printMore, pyMore, FieldsPlain]
  | (k, v) :: l => by
    rw [printMore, pyMore, FieldsPlain, ← print_plain v, ← more_plain l, ← quote_plain]
    constructor
    · intro h
      obtain ⟨h1, h2⟩ := parts_eq (quote_length k) (by
        have := print_length v; have := more_length l; simp only [List.length_append]; omega) (List.append_cancel_left h)
      exact ⟨h1, parts_eq (print_length v) (more_length l) (List.append_cancel_left h2)⟩
    · rintro ⟨h1, h2, h3⟩; rw [h1, h2, h3]
end

/-! ## Python's text is ASCII -/

theorem pyEscape_ascii (c : Char) : Ascii (pyEscape c) := by
  by_cases h : Odd c
  · rw [(escape_odd h).2, hexFour]
    have hx : ∀ n, n < 16 → (hexDigit n).toNat < 128 := by intro n hn; rw [hexDigit_toNat hn]; split <;> omega
    exact .cons (by decide) (.cons (by decide) (.cons (hx _ (by omega)) (.cons (hx _ (by omega)) (.cons (hx _ (by omega)) (.cons (hx _ (by omega)) ascii_nil)))))
  · rw [← escape_plain h]; exact escape_ascii c

theorem pyString_ascii (s : Str) : Ascii (pyString s) := by
  refine .cons (by decide) (.append ?_ (.cons (by decide) ascii_nil))
  intro d hd
  obtain ⟨c, _, hc⟩ := List.mem_flatMap.mp hd
  exact pyEscape_ascii c d hc

mutual
theorem py_ascii : ∀ (j : Json) (_ : j.Ok), Ascii (pyJson j)
  | .null, h => by have := print_ascii .null h; simpa [printJson, pyJson] using this
  | .bool b, h => by have := print_ascii (.bool b) h; simpa [printJson, pyJson] using this
  | .num t, h => by have := print_ascii (.num t) h; simpa [printJson, pyJson] using this
  | .str s, _ => by rw [pyJson]; exact pyString_ascii s
  | .arr [], _ => by rw [pyArr_nil]; exact .cons (by decide) (.cons (by decide) ascii_nil)
  | .arr (x :: l), h => by
    simp only [Json.Ok, ItemsOk] at h
    rw [pyArr_cons]; exact .cons (by decide) ((py_ascii x h.1).append (pyRest_ascii l h.2))
  | .obj [], _ => by rw [pyObj_nil]; exact .cons (by decide) (.cons (by decide) ascii_nil)
  | .obj ((k, v) :: l), h => by
    simp only [Json.Ok, FieldsOk] at h
    rw [pyObj_cons]
    exact .cons (by decide) ((pyString_ascii k).append (ascii_colon.append ((py_ascii v h.1).append (pyMore_ascii l h.2))))
theorem pyRest_ascii : ∀ (l : List Json) (_ : ItemsOk l), Ascii (pyRest l)
  | [], _ => by rw [pyRest]; exact .cons (by decide) ascii_nil
  | x :: l, h => by
    simp only [ItemsOk] at h
    rw [pyRest]; exact ascii_sep.append ((py_ascii x h.1).append (pyRest_ascii l h.2))
theorem pyMore_ascii : ∀ (l : List (Str × Json)) (_ : FieldsOk l), Ascii (pyMore l)
  | [], _ => by rw [pyMore]; exact .cons (by decide) ascii_nil
  | (k, v) :: l, h => by
    simp only [FieldsOk] at h
    rw [pyMore]
    exact ascii_sep.append ((pyString_ascii k).append (ascii_colon.append ((py_ascii v h.1).append (pyMore_ascii l h.2))))
end

end Verif.Class
