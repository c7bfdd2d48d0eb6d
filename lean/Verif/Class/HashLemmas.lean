import Verif.Class.HashSpec
import Verif.Block.Lemmas
/-! # Lemmas about the text that is hashed for a class -/
namespace Verif.Class

/-! ## Characters -/

/-- The value of a hexadecimal digit; a space counts as zero. -/
def hexVal (c : Char) : Nat := if c = ' ' then 0 else if c.toNat < 58 then c.toNat - 48 else c.toNat - 87

def val4 (a b c d : Char) : Nat := hexVal a * 4096 + hexVal b * 256 + hexVal c * 16 + hexVal d

theorem ofNat_toNat {n : Nat} (h : n < 0xd800) : (Char.ofNat n).toNat = n := by
  have : n.isValidChar := Or.inl h
  simp [Char.ofNat, this, Char.toNat, Char.ofNatAux]

theorem hexDigit_toNat {n : Nat} (h : n < 16) : (hexDigit n).toNat = if n < 10 then 48 + n else 87 + n := by
  unfold hexDigit; split <;> rw [ofNat_toNat (by omega)]

theorem char_ext {a b : Char} (h : a.toNat = b.toNat) : a = b := by
  apply Char.ext; apply UInt32.toNat_inj.mp; exact h

theorem char_ne {a b : Char} (h : a.toNat ≠ b.toNat) : a ≠ b := fun e => h (by rw [e])

theorem hexVal_digit {n : Nat} (h : n < 16) : hexVal (hexDigit n) = n := by
  have e := hexDigit_toNat h
  have : hexDigit n ≠ ' ' := by
    apply char_ne
    rw [e]
    have : ' '.toNat = 32 := rfl
    split <;> omega
  unfold hexVal
  rw [if_neg this, e]
  by_cases h2 : n < 10
  · rw [if_pos h2, if_pos (by omega)]; omega
  · rw [if_neg h2, if_neg (by omega)]; omega

theorem hexVal_space : hexVal ' ' = 0 := by simp [hexVal]

theorem hexNat_small {n : Nat} (h : n < 16) : hexNat n = [hexDigit n] := by
  rw [hexNat, if_pos h]

theorem hexNat_step {n : Nat} (h : ¬ n < 16) : hexNat n = hexNat (n / 16) ++ [hexDigit (n % 16)] := by
  rw [hexNat, if_neg h]

theorem hexPadded_four {n : Nat} (h : n < 65536) : ∃ a b c d, hexPadded n = [a, b, c, d] ∧ val4 a b c d = n ∧
    (a.toNat < 128 ∧ b.toNat < 128 ∧ c.toNat < 128 ∧ d.toNat < 128) := by
  have asc : ∀ m, m < 16 → (hexDigit m).toNat < 128 := by
    intro m hm; rw [hexDigit_toNat hm]; split <;> omega
  have sp : ' '.toNat < 128 := by decide
  by_cases h1 : n < 16
  · refine ⟨' ', ' ', ' ', hexDigit n, ?_, ?_, sp, sp, sp, asc _ h1⟩
    · simp [hexPadded, hexNat_small h1, List.replicate]
    · simp [val4, hexVal_space, hexVal_digit h1]
  · by_cases h2 : n / 16 < 16
    · refine ⟨' ', ' ', hexDigit (n / 16), hexDigit (n % 16), ?_, ?_, sp, sp, asc _ h2, asc _ (by omega)⟩
      · simp [hexPadded, hexNat_step h1, hexNat_small h2, List.replicate]
      · simp only [val4, hexVal_space, hexVal_digit h2, hexVal_digit (by omega : n % 16 < 16)]; omega
    · by_cases h3 : n / 16 / 16 < 16
      · refine ⟨' ', hexDigit (n / 16 / 16), hexDigit (n / 16 % 16), hexDigit (n % 16), ?_, ?_, sp, asc _ h3, asc _ (by omega), asc _ (by omega)⟩
        · simp [hexPadded, hexNat_step h1, hexNat_step h2, hexNat_small h3]
        · simp only [val4, hexVal_space, hexVal_digit h3, hexVal_digit (by omega : n % 16 < 16), hexVal_digit (by omega : n / 16 % 16 < 16)]; omega
      · have h4 : n / 16 / 16 / 16 < 16 := by omega
        refine ⟨hexDigit (n / 16 / 16 / 16), hexDigit (n / 16 / 16 % 16), hexDigit (n / 16 % 16), hexDigit (n % 16), ?_, ?_, asc _ h4,
          asc _ (by omega), asc _ (by omega), asc _ (by omega)⟩
        · simp [hexPadded, hexNat_step h1, hexNat_step h2, hexNat_step h3, hexNat_small h4]
        · simp only [val4, hexVal_digit h4, hexVal_digit (by omega : n % 16 < 16), hexVal_digit (by omega : n / 16 % 16 < 16),
            hexVal_digit (by omega : n / 16 / 16 % 16 < 16)]; omega

/-- Reads the four characters of an escape. -/
def readUnit : Str → Option (Nat × Str)
  | a :: b :: c :: d :: r => some (val4 a b c d, r)
  | _ => none

/-- Reads what follows a backslash. -/
def readEsc : Str → Option (Char × Str)
  | [] => none
  | x :: r =>
    if x = 'u' then
      (readUnit r).bind fun p =>
        if 0xd800 ≤ p.1 ∧ p.1 < 0xdc00 then
          (readUnit (p.2.drop 2)).map fun q => (Char.ofNat (0x10000 + (p.1 - 0xd800) * 0x400 + (q.1 - 0xdc00)), q.2)
        else some (Char.ofNat p.1, p.2)
    else if x = 'b' then some (Char.ofNat 8, r)
    else if x = 'f' then some (Char.ofNat 12, r)
    else if x = 'n' then some (Char.ofNat 10, r)
    else if x = 'r' then some (Char.ofNat 13, r)
    else if x = 't' then some (Char.ofNat 9, r)
    else some (x, r)

/-- Reads one character of a string. -/
def readChar : Str → Option (Char × Str)
  | [] => none
  | x :: r => if x = '\\' then readEsc r else some (x, r)

theorem ofNat_self (c : Char) : Char.ofNat c.toNat = c := Char.ofNat_toNat c

theorem readUnit_hex {n : Nat} (h : n < 65536) (u : Str) : readUnit (hexPadded n ++ u) = some (n, u) := by
  obtain ⟨a, b, c, d, e, v, _⟩ := hexPadded_four h
  rw [e]; simp [readUnit, v]

theorem char_valid (c : Char) : c.toNat < 0xd800 ∨ (0xe000 ≤ c.toNat ∧ c.toNat < 0x110000) := by
  have := c.valid
  simp only [UInt32.isValidChar, Nat.isValidChar] at this
  have e : c.toNat = c.val.toNat := rfl
  rw [e]; omega

theorem utf16_small {c : Char} (h : c.toNat < 0x10000) : utf16 c = [c.toNat] := by rw [utf16, if_pos h]

theorem utf16_large {c : Char} (h : ¬ c.toNat < 0x10000) :
    utf16 c = [0xd800 + (c.toNat - 0x10000) / 0x400, 0xdc00 + (c.toNat - 0x10000) % 0x400] := by rw [utf16, if_neg h]

theorem surrogate_nat (n : Nat) (h : ¬ n < 0x10000) :
    0x10000 + (0xd800 + (n - 0x10000) / 0x400 - 0xd800) * 0x400 + (0xdc00 + (n - 0x10000) % 0x400 - 0xdc00) = n := by
  omega

theorem surrogates {c : Char} (h : ¬ c.toNat < 0x10000) :
    Char.ofNat (0x10000 + (0xd800 + (c.toNat - 0x10000) / 0x400 - 0xd800) * 0x400 + (0xdc00 + (c.toNat - 0x10000) % 0x400 - 0xdc00)) = c :=
  (congrArg Char.ofNat (surrogate_nat _ h)).trans (ofNat_self c)

theorem readEsc_unit {n : Nat} (h : n < 65536) (hn : ¬ (0xd800 ≤ n ∧ n < 0xdc00)) (u : Str) :
    readEsc ('u' :: (hexPadded n ++ u)) = some (Char.ofNat n, u) := by
  rw [readEsc, if_pos rfl, readUnit_hex h, Option.bind_some, if_neg hn]

theorem readEsc_pair {m n : Nat} (h : m < 65536) (h' : n < 65536) (hn : 0xd800 ≤ m ∧ m < 0xdc00) (u : Str) :
    readEsc ('u' :: (hexPadded m ++ '\\' :: 'u' :: (hexPadded n ++ u))) =
      some (Char.ofNat (0x10000 + (m - 0xd800) * 0x400 + (n - 0xdc00)), u) := by
  rw [readEsc, if_pos rfl, readUnit_hex h, Option.bind_some, if_pos hn]
  simp only [List.drop_succ_cons, List.drop_zero]
  rw [readUnit_hex h', Option.map_some]

theorem high_lt (n : Nat) (h : ¬ n < 0x10000) (h' : n < 0x110000) :
    0xd800 ≤ 0xd800 + (n - 0x10000) / 0x400 ∧ 0xd800 + (n - 0x10000) / 0x400 < 0xdc00 := by omega

theorem low_lt (n : Nat) : 0xdc00 + (n - 0x10000) % 0x400 < 65536 := by omega

theorem high_lt' {m : Nat} (h : 0xd800 ≤ m ∧ m < 0xdc00) : m < 65536 := by omega

theorem toNat_lt (c : Char) : c.toNat < 0x110000 := by
  have := char_valid c; omega

theorem fragment_pair {c : Char} {m n : Nat} (h : ¬ c.toNat < 128) (e : utf16 c = [m, n]) (hm : 0xd800 ≤ m ∧ m < 0xdc00) (hn : n < 65536)
    (hc : Char.ofNat (0x10000 + (m - 0xd800) * 0x400 + (n - 0xdc00)) = c) (u : Str) : readChar (fragmentChar c ++ u) = some (c, u) := by
  rw [fragmentChar, if_neg h, e]
  simp only [List.flatMap_cons, List.flatMap_nil, List.append_nil, List.cons_append, List.append_assoc]
  rw [readChar, if_pos rfl, readEsc_pair (high_lt' hm) hn hm, hc]

theorem readChar_fragment (c : Char) (hc : c ≠ '\\') (u : Str) : readChar (fragmentChar c ++ u) = some (c, u) := by
  by_cases h : c.toNat < 128
  · rw [fragmentChar, if_pos h, List.cons_append, List.nil_append, readChar, if_neg hc]
  · have hv := char_valid c
    by_cases hs : c.toNat < 0x10000
    · rw [fragmentChar, if_neg h, utf16_small hs]
      simp only [List.flatMap_cons, List.flatMap_nil, List.append_nil, List.cons_append]
      rw [readChar, if_pos rfl, readEsc_unit hs (by omega), ofNat_self]
    · exact fragment_pair h (utf16_large hs) (high_lt _ hs (toNat_lt c)) (low_lt _) (surrogates hs) u

theorem readChar_escape (c : Char) (u : Str) : readChar (escape c ++ u) = some (c, u) := by
  unfold escape
  split
  · next h => subst h; rfl
  split
  · next h => subst h; rfl
  split
  · next h => simp only [List.cons_append, List.nil_append]; rw [← ofNat_self c, h]; rfl
  split
  · next h => simp only [List.cons_append, List.nil_append]; rw [← ofNat_self c, h]; rfl
  split
  · next h => simp only [List.cons_append, List.nil_append]; rw [← ofNat_self c, h]; rfl
  split
  · next h => simp only [List.cons_append, List.nil_append]; rw [← ofNat_self c, h]; rfl
  split
  · next h => simp only [List.cons_append, List.nil_append]; rw [← ofNat_self c, h]; rfl
  split
  · next h =>
    simp only [List.cons_append, List.nil_append, readChar, if_true, readEsc, readUnit, Option.bind_some]
    have e : val4 '0' '0' (hexDigit (c.toNat / 16)) (hexDigit (c.toNat % 16)) = c.toNat := by
      have z : hexVal '0' = 0 := by decide
      simp only [val4, z, hexVal_digit (by omega : c.toNat / 16 < 16), hexVal_digit (by omega : c.toNat % 16 < 16)]; omega
    rw [e, if_neg (by omega), ofNat_self]
  · next h2 _ _ _ _ _ _ => exact readChar_fragment c h2 u

theorem escape_inj {c d : Char} {u v : Str} (h : escape c ++ u = escape d ++ v) : c = d ∧ u = v := by
  have := readChar_escape c u
  rw [h, readChar_escape d v] at this
  simp only [Option.some.injEq, Prod.mk.injEq] at this
  exact ⟨this.1.symm, this.2.symm⟩

theorem escape_head (c : Char) : ∃ a t, escape c = a :: t ∧ a ≠ '"' := by
  unfold escape
  split
  · exact ⟨_, _, rfl, by decide⟩
  split
  · exact ⟨_, _, rfl, by decide⟩
  split
  · exact ⟨_, _, rfl, by decide⟩
  split
  · exact ⟨_, _, rfl, by decide⟩
  split
  · exact ⟨_, _, rfl, by decide⟩
  split
  · exact ⟨_, _, rfl, by decide⟩
  split
  · exact ⟨_, _, rfl, by decide⟩
  split
  · exact ⟨_, _, rfl, by decide⟩
  · next h1 _ _ _ _ _ _ _ =>
    unfold fragmentChar
    split
    · exact ⟨_, _, rfl, h1⟩
    · by_cases hs : c.toNat < 0x10000
      · rw [utf16_small hs, List.flatMap_cons, List.cons_append]; exact ⟨_, _, rfl, by decide⟩
      · rw [utf16_large hs, List.flatMap_cons, List.cons_append]; exact ⟨_, _, rfl, by decide⟩

theorem escapes_inj {s t : Str} {u v : Str} (h : s.flatMap escape ++ '"' :: u = t.flatMap escape ++ '"' :: v) : s = t ∧ u = v := by
  induction s generalizing t with
  | nil =>
    cases t with
    | nil => simpa using h
    | cons d t =>
      obtain ⟨a, w, e, ha⟩ := escape_head d
      rw [List.flatMap_cons, e] at h
      simp at h
      exact absurd h.1.symm ha
  | cons c s ih =>
    cases t with
    | nil =>
      obtain ⟨a, w, e, ha⟩ := escape_head c
      rw [List.flatMap_cons, e] at h
      simp at h
      exact absurd h.1 ha
    | cons d t =>
      rw [List.flatMap_cons, List.flatMap_cons, List.append_assoc, List.append_assoc] at h
      obtain ⟨e1, e2⟩ := escape_inj h
      obtain ⟨e3, e4⟩ := ih e2
      exact ⟨by rw [e1, e3], e4⟩

theorem quote_inj {s t u v : Str} (h : quote s ++ u = quote t ++ v) : s = t ∧ u = v := by
  simp only [quote, List.cons_append, List.append_assoc, List.nil_append, List.cons.injEq, true_and] at h
  exact escapes_inj h

/-! ## JSON values -/

/-- What may follow a value. -/
def Ends (r : Str) : Prop := ∀ c, r.head? = some c → ¬ NumChar c

theorem not_num {c : Char} (h1 : c.toNat < 48 ∨ 57 < c.toNat) (h2 : c.toNat ≠ 45) (h3 : c.toNat ≠ 43) (h4 : c.toNat ≠ 46) (h5 : c.toNat ≠ 101)
    (h6 : c.toNat ≠ 69) : ¬ NumChar c := by
  rintro (⟨a, b⟩ | a | a | a | a | a)
  · have a' : 48 ≤ c.toNat := a
    have b' : c.toNat ≤ 57 := b
    omega
  all_goals subst a; simp at h2 h3 h4 h5 h6

theorem num_split {t t' r r' : Str} (h : ∀ c ∈ t, NumChar c) (h' : ∀ c ∈ t', NumChar c) (hr : Ends r) (hr' : Ends r') (e : t ++ r = t' ++ r') :
    t = t' ∧ r = r' := by
  induction t generalizing t' with
  | nil =>
    cases t' with
    | nil => exact ⟨rfl, e⟩
    | cons c t' =>
      simp only [List.nil_append, List.cons_append] at e
      exact absurd (h' c (by simp)) (hr c (by rw [e]; rfl))
  | cons c t ih =>
    cases t' with
    | nil =>
      simp only [List.nil_append, List.cons_append] at e
      exact absurd (h c (by simp)) (hr' c (by rw [← e]; rfl))
    | cons d t' =>
      simp only [List.cons_append, List.cons.injEq] at e
      obtain ⟨a, b⟩ := ih (fun x hx => h x (by simp [hx])) (fun x hx => h' x (by simp [hx])) e.2
      exact ⟨by rw [e.1, a], b⟩

/-- The kinds of value, by their first character. -/
def Json.kind : Json → Nat
  | .null => 0
  | .bool b => if b then 1 else 2
  | .num _ => 3
  | .str _ => 4
  | .arr _ => 5
  | .obj _ => 6

def kindOf (c : Char) : Nat :=
  if c = 'n' then 0 else if c = 't' then 1 else if c = 'f' then 2 else if c = '"' then 4 else if c = '[' then 5 else if c = '{' then 6 else 3

theorem print_head (x : Json) (h : x.Ok) : ∃ c t, printJson x = c :: t ∧ kindOf c = x.kind := by
  cases x with
  | null => exact ⟨_, _, by rw [printJson], by decide⟩
  | bool b => cases b <;> exact ⟨_, _, by rw [printJson]; rfl, by decide⟩
  | num t =>
    obtain ⟨h1, h2⟩ := h
    cases t with
    | nil => exact absurd rfl h1
    | cons c t =>
      refine ⟨c, t, by rw [printJson], ?_⟩
      have hc := h2 c (by simp)
      have ne : ∀ d : Char, ¬ NumChar d → c ≠ d := fun d hd e => hd (e ▸ hc)
      simp only [kindOf, Json.kind]
      rw [if_neg (ne _ (not_num (by decide) (by decide) (by decide) (by decide) (by decide) (by decide))),
        if_neg (ne _ (not_num (by decide) (by decide) (by decide) (by decide) (by decide) (by decide))),
        if_neg (ne _ (not_num (by decide) (by decide) (by decide) (by decide) (by decide) (by decide))),
        if_neg (ne _ (not_num (by decide) (by decide) (by decide) (by decide) (by decide) (by decide))),
        if_neg (ne _ (not_num (by decide) (by decide) (by decide) (by decide) (by decide) (by decide))),
        if_neg (ne _ (not_num (by decide) (by decide) (by decide) (by decide) (by decide) (by decide)))]
  | str s => exact ⟨_, _, by rw [printJson, quote], by simp [kindOf, Json.kind]⟩
  | arr l => exact ⟨_, _, by rw [printJson], by simp [kindOf, Json.kind]⟩
  | obj l => exact ⟨_, _, by rw [printJson], by simp [kindOf, Json.kind]⟩

theorem kind_eq {x y : Json} (hx : x.Ok) (hy : y.Ok) {r r' : Str} (e : printJson x ++ r = printJson y ++ r') : x.kind = y.kind := by
  obtain ⟨c, t, e1, k1⟩ := print_head x hx
  obtain ⟨d, t', e2, k2⟩ := print_head y hy
  rw [e1, e2] at e
  simp only [List.cons_append, List.cons.injEq] at e
  rw [← k1, ← k2, e.1]

theorem ends_of {c : Char} {r : Str} (h : ¬ NumChar c) : Ends (c :: r) := by
  intro d hd
  simp only [List.head?_cons, Option.some.injEq] at hd
  subst hd; exact h

theorem comma_end (r : Str) : Ends (',' :: r) := ends_of (not_num (by decide) (by decide) (by decide) (by decide) (by decide) (by decide))
theorem bracket_end (r : Str) : Ends (']' :: r) := ends_of (not_num (by decide) (by decide) (by decide) (by decide) (by decide) (by decide))
theorem brace_end (r : Str) : Ends ('}' :: r) := ends_of (not_num (by decide) (by decide) (by decide) (by decide) (by decide) (by decide))

theorem rest_end (l : List Json) (r : Str) : Ends (printRest l ++ r) := by
  cases l with
  | nil => rw [printRest]; exact bracket_end r
  | cons x l => rw [printRest]; exact comma_end _

theorem more_end (l : List (Str × Json)) (r : Str) : Ends (printMore l ++ r) := by
  cases l with
  | nil => rw [printMore]; exact brace_end r
  | cons x l => obtain ⟨k, v⟩ := x; rw [printMore]; exact comma_end _

mutual
theorem print_inj : ∀ (x y : Json) (_ : x.Ok) (_ : y.Ok) (r r' : Str) (_ : Ends r) (_ : Ends r') (_ : printJson x ++ r = printJson y ++ r'),
    x = y ∧ r = r'
  | .null, y, hx, hy, r, r', _, _, e => by
    have k := kind_eq hx hy e
    cases y with
    | null => simp only [printJson] at e; exact ⟨rfl, by simpa using e⟩
    | bool b => cases b <;> simp [Json.kind] at k
    | _ => simp [Json.kind] at k
  | .bool a, y, hx, hy, r, r', _, _, e => by
    have k := kind_eq hx hy e
    cases y with
    | bool b => cases a <;> cases b <;> simp [Json.kind] at k <;> (simp only [printJson] at e; exact ⟨rfl, by simpa using e⟩)
    | _ => cases a <;> simp [Json.kind] at k
  | .num t, y, hx, hy, r, r', hr, hr', e => by
    have k := kind_eq hx hy e
    cases y with
    | num t' =>
      simp only [printJson] at e
      obtain ⟨a, b⟩ := num_split hx.2 hy.2 hr hr' e
      exact ⟨by rw [a], b⟩
    | bool b => cases b <;> simp [Json.kind] at k
    | _ => simp [Json.kind] at k
  | .str s, y, hx, hy, r, r', _, _, e => by
    have k := kind_eq hx hy e
    cases y with
    | str t =>
      simp only [printJson] at e
      obtain ⟨a, b⟩ := quote_inj e
      exact ⟨by rw [a], b⟩
    | bool b => cases b <;> simp [Json.kind] at k
    | _ => simp [Json.kind] at k
  | .arr l, y, hx, hy, r, r', _, _, e => by
    have k := kind_eq hx hy e
    cases y with
    | arr l' =>
      simp only [printJson, List.cons_append, List.cons.injEq, true_and] at e
      simp only [Json.Ok] at hx hy
      obtain ⟨a, b⟩ := items_inj l l' hx hy r r' e
      exact ⟨by rw [a], b⟩
    | bool b => cases b <;> simp [Json.kind] at k
    | _ => simp [Json.kind] at k
  | .obj l, y, hx, hy, r, r', _, _, e => by
    have k := kind_eq hx hy e
    cases y with
    | obj l' =>
      simp only [printJson, List.cons_append, List.cons.injEq, true_and] at e
      simp only [Json.Ok] at hx hy
      obtain ⟨a, b⟩ := fields_inj l l' hx hy r r' e
      exact ⟨by rw [a], b⟩
    | bool b => cases b <;> simp [Json.kind] at k
    | _ => simp [Json.kind] at k
theorem items_inj : ∀ (l l' : List Json) (_ : ItemsOk l) (_ : ItemsOk l') (r r' : Str) (_ : printItems l ++ r = printItems l' ++ r'), l = l' ∧ r = r'
  | [], [], _, _, r, r', e => by simp only [printItems] at e; exact ⟨rfl, by simpa using e⟩
  | [], y :: l', _, hy, r, r', e => by
    simp only [ItemsOk] at hy
    obtain ⟨c, t, e1, k1⟩ := print_head y hy.1
    simp only [printItems, e1, List.cons_append, List.cons.injEq] at e
    rw [← e.1] at k1
    cases y with
    | bool b => cases b <;> simp [kindOf, Json.kind] at k1
    | num t => obtain ⟨⟨h1, h2⟩, _⟩ := hy; simp only [printJson] at e1; exact absurd (h2 c (by rw [e1]; simp)) (e.1 ▸ not_num (by decide) (by decide) (by decide) (by decide) (by decide) (by decide))
    | _ => simp [kindOf, Json.kind] at k1
  | x :: l, [], hx, _, r, r', e => by
    simp only [ItemsOk] at hx
    obtain ⟨c, t, e1, k1⟩ := print_head x hx.1
    simp only [printItems, e1, List.cons_append, List.cons.injEq] at e
    rw [e.1] at k1
    cases x with
    | bool b => cases b <;> simp [kindOf, Json.kind] at k1
    | num t => obtain ⟨⟨h1, h2⟩, _⟩ := hx; simp only [printJson] at e1; exact absurd (h2 c (by rw [e1]; simp)) (e.1 ▸ not_num (by decide) (by decide) (by decide) (by decide) (by decide) (by decide))
    | _ => simp [kindOf, Json.kind] at k1
  | x :: l, y :: l', hx, hy, r, r', e => by
    simp only [ItemsOk] at hx hy
    simp only [printItems, List.append_assoc] at e
    obtain ⟨a, b⟩ := print_inj x y hx.1 hy.1 _ _ (rest_end l r) (rest_end l' r') e
    obtain ⟨c, d⟩ := rest_inj l l' hx.2 hy.2 r r' b
    exact ⟨by rw [a, c], d⟩
theorem rest_inj : ∀ (l l' : List Json) (_ : ItemsOk l) (_ : ItemsOk l') (r r' : Str) (_ : printRest l ++ r = printRest l' ++ r'), l = l' ∧ r = r'
  | [], [], _, _, r, r', e => by simp only [printRest] at e; exact ⟨rfl, by simpa using e⟩
  | [], y :: l', _, hy, r, r', e => by simp [printRest, sep] at e
  | x :: l, [], hx, _, r, r', e => by simp [printRest, sep] at e
  | x :: l, y :: l', hx, hy, r, r', e => by
    simp only [ItemsOk] at hx hy
    simp only [printRest, List.append_assoc] at e
    obtain ⟨a, b⟩ := print_inj x y hx.1 hy.1 _ _ (rest_end l r) (rest_end l' r') (List.append_cancel_left e)
    obtain ⟨c, d⟩ := rest_inj l l' hx.2 hy.2 r r' b
    exact ⟨by rw [a, c], d⟩
theorem fields_inj : ∀ (l l' : List (Str × Json)) (_ : FieldsOk l) (_ : FieldsOk l') (r r' : Str) (_ : printFields l ++ r = printFields l' ++ r'),
    l = l' ∧ r = r'
  | [], [], _, _, r, r', e => by simp only [printFields] at e; exact ⟨rfl, by simpa using e⟩
  | [], (k, v) :: l', _, hy, r, r', e => by simp [printFields, quote] at e
  | (k, v) :: l, [], hx, _, r, r', e => by simp [printFields, quote] at e
  | (k, v) :: l, (k', v') :: l', hx, hy, r, r', e => by
    simp only [FieldsOk] at hx hy
    simp only [printFields, List.append_assoc] at e
    obtain ⟨ek, e⟩ := quote_inj e
    obtain ⟨a, b⟩ := print_inj v v' hx.1 hy.1 _ _ (more_end l r) (more_end l' r') (List.append_cancel_left e)
    obtain ⟨c, d⟩ := more_inj l l' hx.2 hy.2 r r' b
    exact ⟨by rw [ek, a, c], d⟩
theorem more_inj : ∀ (l l' : List (Str × Json)) (_ : FieldsOk l) (_ : FieldsOk l') (r r' : Str) (_ : printMore l ++ r = printMore l' ++ r'),
    l = l' ∧ r = r'
  | [], [], _, _, r, r', e => by simp only [printMore] at e; exact ⟨rfl, by simpa using e⟩
  | [], (k, v) :: l', _, hy, r, r', e => by simp [printMore, sep] at e
  | (k, v) :: l, [], hx, _, r, r', e => by simp [printMore, sep] at e
  | (k, v) :: l, (k', v') :: l', hx, hy, r, r', e => by
    simp only [FieldsOk] at hx hy
    simp only [printMore, List.append_assoc] at e
    obtain ⟨ek, e⟩ := quote_inj (List.append_cancel_left e)
    obtain ⟨a, b⟩ := print_inj v v' hx.1 hy.1 _ _ (more_end l r) (more_end l' r') (List.append_cancel_left e)
    obtain ⟨c, d⟩ := more_inj l l' hx.2 hy.2 r r' b
    exact ⟨by rw [ek, a, c], d⟩
end

theorem printJson_inj {x y : Json} (hx : x.Ok) (hy : y.Ok) (e : printJson x = printJson y) : x = y :=
  (print_inj x y hx hy [] [] (by intro c h; simp at h) (by intro c h; simp at h) (by simpa using e)).1

end Verif.Class
