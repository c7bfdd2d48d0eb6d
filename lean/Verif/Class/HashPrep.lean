import Verif.Class.HashLemmas
/-! # Lemmas about the preparation of a Cairo 0 class -/
namespace Verif.Class
open Verif.Block (F felt Hashes)
open Verif.Events.TokenText (showNat showNat_digits readNat_show)

/-! ## Attributes -/

theorem lookup_remove (k k' : Str) (l : List (Str × Json)) : (remove k l).lookup k' = if k' = k then none else l.lookup k' := by
  induction l with
  | nil => simp [remove]
  | cons f l ih =>
    obtain ⟨a, v⟩ := f
    simp only [remove] at ih ⊢
    by_cases h : a = k
    · subst h
      rw [List.filter_cons_of_neg (by simp), ih]
      by_cases h' : k' = a
      · rw [if_pos h', if_pos h']
      · rw [if_neg h', if_neg h', List.lookup_cons, beq_false_of_ne h']
    · rw [List.filter_cons_of_pos (by simp [h]), List.lookup_cons, List.lookup_cons]
      by_cases h' : k' = a
      · subst h'; simp [h]
      · rw [beq_false_of_ne h', ih]

theorem dropScopes_lookup {l m : List (Str × Json)} (h : dropScopes l = some m) (k : Str) :
    m.lookup k = l.lookup k ∨ (k = scopesKey ∧ l.lookup k = some (.arr []) ∧ m.lookup k = none) := by
  unfold dropScopes at h
  split at h
  · cases h; exact .inl rfl
  · next e =>
    cases h
    rw [lookup_remove]
    by_cases hk : k = scopesKey
    · subst hk; exact .inr ⟨rfl, e, by simp⟩
    · exact .inl (by simp [hk])
  · cases h; exact .inl rfl
  · cases h

theorem dropFlow_lookup (l : List (Str × Json)) (k : Str) :
    (dropFlow l).lookup k = l.lookup k ∨ (k = flowKey ∧ l.lookup k = some .null ∧ (dropFlow l).lookup k = none) := by
  unfold dropFlow
  split
  · next e =>
    rw [lookup_remove]
    by_cases hk : k = flowKey
    · subst hk; exact .inr ⟨rfl, e, by simp⟩
    · exact .inl (by simp [hk])
  · exact .inl rfl

theorem dropped_lookup {l m : List (Str × Json)} (h : dropScopes l = some m) (k : Str) :
    (dropFlow m).lookup k = l.lookup k ∨ (k = scopesKey ∧ l.lookup k = some (.arr []) ∧ (dropFlow m).lookup k = none) ∨
    (k = flowKey ∧ l.lookup k = some .null ∧ (dropFlow m).lookup k = none) := by
  have ne : scopesKey ≠ flowKey := by decide
  rcases dropFlow_lookup m k with h1 | ⟨h1, h2, h3⟩
  · rcases dropScopes_lookup h k with h4 | ⟨h4, h5, h6⟩
    · exact .inl (h1.trans h4)
    · exact .inr (.inl ⟨h4, h5, h1.trans h6⟩)
  · rcases dropScopes_lookup h k with h4 | ⟨h4, h5, h6⟩
    · exact .inr (.inr ⟨h1, h4 ▸ h2, h3⟩)
    · exact absurd (h4.symm.trans h1) ne

theorem prepareAttribute_alike {a b c : Json} (ha : prepareAttribute a = some c) (hb : prepareAttribute b = some c) : AlikeAttributes a b := by
  cases a with
  | obj l =>
    cases b with
    | obj l' =>
      simp only [prepareAttribute, Option.map_eq_some_iff] at ha hb
      obtain ⟨m, hm, rfl⟩ := ha
      obtain ⟨m', hm', e⟩ := hb
      simp only [Json.obj.injEq] at e
      intro k
      have h1 := dropped_lookup hm k
      have h2 := dropped_lookup hm' k
      rw [e] at h2
      have ne : scopesKey ≠ flowKey := by decide
      unfold Alike
      have s1 : scopesKey = "accessible_scopes".toList := rfl
      have s2 : flowKey = "flow_tracking_data".toList := rfl
      rw [← s1, ← s2]
      rcases h1 with h1 | ⟨h1, h3, h4⟩ | ⟨h1, h3, h4⟩ <;> rcases h2 with h2 | ⟨h2, h5, h6⟩ | ⟨h2, h5, h6⟩
      · exact .inl (h1.symm.trans h2)
      · exact .inr (.inl ⟨h2, .inl (h1.symm.trans h6), .inr h5⟩)
      · exact .inr (.inr ⟨h2, .inl (h1.symm.trans h6), .inr h5⟩)
      · exact .inr (.inl ⟨h1, .inr h3, .inl (h2.symm.trans h4)⟩)
      · exact .inl (h3.trans h5.symm)
      · exact absurd (h1.symm.trans h2) ne
      · exact .inr (.inr ⟨h1, .inr h3, .inl (h2.symm.trans h4)⟩)
      · exact absurd (h2.symm.trans h1) ne
      · exact .inl (h3.trans h5.symm)
    | _ => simp [prepareAttribute] at hb
  | _ => simp [prepareAttribute] at ha

theorem prepare_alike {l l' r : List Json} (h : l.mapM prepareAttribute = some r) (h' : l'.mapM prepareAttribute = some r) :
    Pairwise₂ AlikeAttributes l l' := by
  induction l generalizing l' r with
  | nil =>
    simp at h; subst h
    cases l' with
    | nil => exact .nil
    | cons y l' => simp [List.mapM_cons, Option.bind_eq_some_iff] at h'
  | cons x l ih =>
    simp only [List.mapM_cons, Option.bind_eq_bind, Option.bind_eq_some_iff, Option.pure_def, Option.some.injEq] at h
    obtain ⟨a, ha, s, hs, rfl⟩ := h
    cases l' with
    | nil => simp at h'
    | cons y l' =>
      simp only [List.mapM_cons, Option.bind_eq_bind, Option.bind_eq_some_iff, Option.pure_def, Option.some.injEq] at h'
      obtain ⟨b, hb, s', hs', e⟩ := h'
      simp only [List.cons.injEq] at e
      exact .cons (prepareAttribute_alike ha (e.1 ▸ hb)) (ih hs (e.2 ▸ hs'))

theorem fieldsOk_filter {l : List (Str × Json)} (h : FieldsOk l) (p : Str × Json → Bool) : FieldsOk (l.filter p) := by
  induction l with
  | nil => simpa using h
  | cons f l ih =>
    obtain ⟨k, v⟩ := f
    simp only [FieldsOk] at h
    rw [List.filter_cons]
    split
    · simp only [FieldsOk]; exact ⟨h.1, ih h.2⟩
    · exact ih h.2

theorem prepareAttribute_ok {a c : Json} (h : prepareAttribute a = some c) (ha : a.Ok) : c.Ok := by
  cases a with
  | obj l =>
    simp only [prepareAttribute, Option.map_eq_some_iff] at h
    obtain ⟨m, hm, rfl⟩ := h
    simp only [Json.Ok] at ha ⊢
    have h1 : FieldsOk m := by
      unfold dropScopes at hm
      split at hm <;> cases hm <;> first | exact ha | exact fieldsOk_filter ha _
    unfold dropFlow
    split
    · exact fieldsOk_filter h1 _
    · exact h1
  | _ => simp [prepareAttribute] at h

theorem prepare_ok {l r : List Json} (h : l.mapM prepareAttribute = some r) (hl : ItemsOk l) : ItemsOk r := by
  induction l generalizing r with
  | nil => simp at h; subst h; exact hl
  | cons x l ih =>
    simp only [List.mapM_cons, Option.bind_eq_bind, Option.bind_eq_some_iff, Option.pure_def, Option.some.injEq] at h
    obtain ⟨a, ha, s, hs, rfl⟩ := h
    simp only [ItemsOk] at hl ⊢
    exact ⟨prepareAttribute_ok ha hl.1, ih hs hl.2⟩

/-! ## Spaces -/

theorem isPrefixOf_split {p s : Str} (h : p.isPrefixOf s = true) : s = p ++ s.drop p.length := by
  have := List.isPrefixOf_iff_prefix.mp h
  obtain ⟨t, rfl⟩ := this
  simp

theorem replace_filter {pat to : Str} (hp : pat ≠ []) (f : Char → Bool) (e : pat.filter f = to.filter f) (s : Str) (k : Nat) :
    (replaceFrom pat to k s).filter f = (s.drop k).filter f := by
  induction s generalizing k with
  | nil => cases k <;> simp [replaceFrom]
  | cons c s ih =>
    cases k with
    | succ k => rw [replaceFrom, ih]; simp
    | zero =>
      rw [replaceFrom]
      split
      · next h =>
        rw [List.filter_append, ih, ← e, ← List.filter_append, List.drop_zero]
        congr 1
        have h2 := isPrefixOf_split h
        cases pat with
        | nil => exact absurd rfl hp
        | cons d pat => simpa using h2.symm
      · rw [List.drop_zero, List.filter_cons, List.filter_cons, ih, List.drop_zero]

theorem spaceColon_filter (s : Str) : (spaceColon s).filter (· ≠ ' ') = s.filter (· ≠ ' ') := by
  unfold spaceColon
  rw [replace_filter (by simp) _ (by decide), List.drop_zero, replace_filter (by simp) _ (by decide), List.drop_zero]

theorem spacedKey_iff (k : Str) : spacedKey k = true ↔ k = "cairo_type".toList ∨ k = "value".toList := by
  simp [spacedKey]

mutual
theorem unspaced_spaced : ∀ j : Json, unspaced (spaced j) = unspaced j
  | .null => by simp [spaced]
  | .bool b => by simp [spaced]
  | .num t => by simp [spaced]
  | .str s => by simp [spaced]
  | .arr l => by rw [spaced, unspaced, unspaced, unspacedItems_spaced l]
  | .obj l => by rw [spaced, unspaced, unspaced, unspacedFields_spaced l]
theorem unspacedItems_spaced : ∀ l : List Json, unspacedItems (spacedItems l) = unspacedItems l
  | [] => by simp [spacedItems]
  | x :: l => by rw [spacedItems, unspacedItems, unspacedItems, unspaced_spaced x, unspacedItems_spaced l]
theorem unspacedFields_spaced : ∀ l : List (Str × Json), unspacedFields (spacedFields l) = unspacedFields l
  | [] => by simp [spacedFields]
  | (k, v) :: l => by
    rw [spacedFields, unspacedFields, unspacedFields, unspacedFields_spaced l]
    by_cases h : k = "cairo_type".toList ∨ k = "value".toList
    · rw [if_pos h, if_pos h, unspacedString_spaced k v]
    · rw [if_neg h, if_neg h, unspaced_spacedValue k (by simpa [spacedKey_iff] using mt (spacedKey_iff k).mp h) v]
theorem unspacedString_spaced : ∀ (k : Str) (v : Json), unspacedString (spacedValue k v) = unspacedString v
  | k, .null => by simp [spacedValue]
  | k, .bool b => by simp [spacedValue]
  | k, .num t => by simp [spacedValue]
  | k, .str s => by
    rw [spacedValue, unspacedString, unspacedString]
    split
    · rw [spaceColon_filter]
    · rfl
  | k, .arr l => by rw [spacedValue, unspacedString, unspacedString, unspacedItems_spaced l]
  | k, .obj l => by rw [spacedValue, unspacedString, unspacedString, unspacedFields_spaced l]
theorem unspaced_spacedValue : ∀ (k : Str) (_ : ¬ spacedKey k = true) (v : Json), unspaced (spacedValue k v) = unspaced v
  | k, _, .null => by simp [spacedValue]
  | k, _, .bool b => by simp [spacedValue]
  | k, _, .num t => by simp [spacedValue]
  | k, h, .str s => by rw [spacedValue, if_neg h]
  | k, _, .arr l => by rw [spacedValue, unspaced, unspaced, unspacedItems_spaced l]
  | k, _, .obj l => by rw [spacedValue, unspaced, unspaced, unspacedFields_spaced l]
end

mutual
theorem spaced_ok : ∀ (j : Json) (_ : j.Ok), (spaced j).Ok
  | .null, h => by simpa [spaced] using h
  | .bool b, h => by simpa [spaced] using h
  | .num t, h => by simpa [spaced] using h
  | .str s, h => by simpa [spaced] using h
  | .arr l, h => by simp only [spaced, Json.Ok] at h ⊢; exact spacedItems_ok l h
  | .obj l, h => by simp only [spaced, Json.Ok] at h ⊢; exact spacedFields_ok l h
theorem spacedItems_ok : ∀ (l : List Json) (_ : ItemsOk l), ItemsOk (spacedItems l)
  | [], h => by simpa [spacedItems] using h
  | x :: l, h => by simp only [spacedItems, ItemsOk] at h ⊢; exact ⟨spaced_ok x h.1, spacedItems_ok l h.2⟩
theorem spacedFields_ok : ∀ (l : List (Str × Json)) (_ : FieldsOk l), FieldsOk (spacedFields l)
  | [], h => by simpa [spacedFields] using h
  | (k, v) :: l, h => by simp only [spacedFields, FieldsOk] at h ⊢; exact ⟨spacedValue_ok k v h.1, spacedFields_ok l h.2⟩
theorem spacedValue_ok : ∀ (k : Str) (v : Json) (_ : v.Ok), (spacedValue k v).Ok
  | k, .null, h => by simpa [spacedValue] using h
  | k, .bool b, h => by simpa [spacedValue] using h
  | k, .num t, h => by simpa [spacedValue] using h
  | k, .str s, h => by simp [spacedValue, Json.Ok]
  | k, .arr l, h => by simp only [spacedValue, Json.Ok] at h ⊢; exact spacedItems_ok l h
  | k, .obj l, h => by simp only [spacedValue, Json.Ok] at h ⊢; exact spacedFields_ok l h
end

/-! ## The text is ASCII -/

theorem escape_ascii (c : Char) : ∀ d ∈ escape c, d.toNat < 128 := by
  have hx : ∀ n, n < 16 → (hexDigit n).toNat < 128 := by intro n hn; rw [hexDigit_toNat hn]; split <;> omega
  have hp : ∀ n, n < 65536 → ∀ d ∈ hexPadded n, d.toNat < 128 := by
    intro n hn d hd
    obtain ⟨a, b, c, e, h1, _, h2⟩ := hexPadded_four hn
    rw [h1] at hd
    simp at hd
    rcases hd with rfl | rfl | rfl | rfl <;> omega
  intro d hd
  unfold escape at hd
  split at hd
  · simp at hd; rcases hd with rfl | rfl <;> decide
  split at hd
  · simp at hd; subst hd; decide
  iterate 5
    split at hd
    · simp at hd; rcases hd with rfl | rfl <;> decide
  split at hd
  · next h =>
    simp at hd
    rcases hd with rfl | rfl | rfl | rfl | rfl
    · decide
    · decide
    · decide
    · exact hx _ (by omega)
    · exact hx _ (by omega)
  · unfold fragmentChar at hd
    split at hd
    · simp at hd; subst hd; assumption
    · have key : ∀ u, u < 65536 → d ∈ '\\' :: 'u' :: hexPadded u → d.toNat < 128 := by
        intro u hu h
        simp only [List.mem_cons] at h
        rcases h with rfl | rfl | h
        · decide
        · decide
        · exact hp u hu d h
      by_cases hs : c.toNat < 0x10000
      · rw [utf16_small hs] at hd
        simp only [List.flatMap_cons, List.flatMap_nil, List.append_nil] at hd
        exact key _ hs hd
      · rw [utf16_large hs] at hd
        rw [List.flatMap_cons, List.flatMap_cons, List.flatMap_nil, List.append_nil, List.mem_append] at hd
        rcases hd with hd | hd
        · exact key _ (high_lt' (high_lt _ hs (toNat_lt c))) hd
        · exact key _ (low_lt _) hd

theorem quote_ascii (s : Str) : ∀ d ∈ quote s, d.toNat < 128 := by
  intro d hd
  simp only [quote, List.mem_cons, List.mem_append, List.mem_flatMap, List.not_mem_nil, or_false] at hd
  rcases hd with rfl | ⟨c, _, hc⟩ | rfl
  · decide
  · exact escape_ascii c d hc
  · decide

theorem numChar_ascii {c : Char} (h : NumChar c) : c.toNat < 128 := by
  rcases h with ⟨_, h⟩ | rfl | rfl | rfl | rfl | rfl
  · have : c.toNat ≤ 57 := h
    omega
  all_goals decide

def Ascii (s : Str) : Prop := ∀ c ∈ s, c.toNat < 128

theorem Ascii.append {s t : Str} (hs : Ascii s) (ht : Ascii t) : Ascii (s ++ t) := by
  intro c hc
  rcases List.mem_append.mp hc with h | h
  · exact hs c h
  · exact ht c h

theorem Ascii.cons {c : Char} {t : Str} (hs : c.toNat < 128) (ht : Ascii t) : Ascii (c :: t) := by
  intro d hc
  rcases List.mem_cons.mp hc with rfl | h
  · exact hs
  · exact ht d h

theorem ascii_nil : Ascii [] := by intro c h; cases h
theorem ascii_sep : Ascii sep := .cons (by decide) (.cons (by decide) ascii_nil)
theorem ascii_colon : Ascii colon := .cons (by decide) (.cons (by decide) ascii_nil)

mutual
theorem print_ascii : ∀ (j : Json) (_ : j.Ok), Ascii (printJson j)
  | .null, _ => by rw [printJson]; exact .cons (by decide) (.cons (by decide) (.cons (by decide) (.cons (by decide) ascii_nil)))
  | .bool b, _ => by
    rw [printJson]
    cases b
    · exact .cons (by decide) (.cons (by decide) (.cons (by decide) (.cons (by decide) (.cons (by decide) ascii_nil))))
    · exact .cons (by decide) (.cons (by decide) (.cons (by decide) (.cons (by decide) ascii_nil)))
  | .num t, h => by rw [printJson]; intro c hc; exact numChar_ascii (h.2 c hc)
  | .str s, _ => by rw [printJson]; exact quote_ascii s
  | .arr l, h => by rw [printJson]; simp only [Json.Ok] at h; exact .cons (by decide) (items_ascii l h)
  | .obj l, h => by rw [printJson]; simp only [Json.Ok] at h; exact .cons (by decide) (fields_ascii l h)
theorem items_ascii : ∀ (l : List Json) (_ : ItemsOk l), Ascii (printItems l)
  | [], _ => by rw [printItems]; exact .cons (by decide) ascii_nil
  | x :: l, h => by rw [printItems]; simp only [ItemsOk] at h; exact (print_ascii x h.1).append (rest_ascii l h.2)
theorem rest_ascii : ∀ (l : List Json) (_ : ItemsOk l), Ascii (printRest l)
  | [], _ => by rw [printRest]; exact .cons (by decide) ascii_nil
  | x :: l, h => by rw [printRest]; simp only [ItemsOk] at h; exact ascii_sep.append ((print_ascii x h.1).append (rest_ascii l h.2))
theorem fields_ascii : ∀ (l : List (Str × Json)) (_ : FieldsOk l), Ascii (printFields l)
  | [], _ => by rw [printFields]; exact .cons (by decide) ascii_nil
  | (k, v) :: l, h => by
    rw [printFields]; simp only [FieldsOk] at h
    exact (show Ascii (quote k) from quote_ascii k).append (ascii_colon.append ((print_ascii v h.1).append (more_ascii l h.2)))
theorem more_ascii : ∀ (l : List (Str × Json)) (_ : FieldsOk l), Ascii (printMore l)
  | [], _ => by rw [printMore]; exact .cons (by decide) ascii_nil
  | (k, v) :: l, h => by
    rw [printMore]; simp only [FieldsOk] at h
    exact ascii_sep.append ((show Ascii (quote k) from quote_ascii k).append (ascii_colon.append ((print_ascii v h.1).append (more_ascii l h.2))))
end

theorem asciiBytes_inj {s t : Str} (hs : Ascii s) (ht : Ascii t) (e : asciiBytes s = asciiBytes t) : s = t := by
  induction s generalizing t with
  | nil => cases t <;> simp [asciiBytes] at e ⊢
  | cons c s ih =>
    cases t with
    | nil => simp [asciiBytes] at e
    | cons d t =>
      simp only [asciiBytes, List.map_cons, List.cons.injEq] at e
      have hc := hs c (by simp)
      have hd := ht d (by simp)
      have e1 : c.toNat = d.toNat := by
        have := congrArg UInt8.toNat e.1
        simp only [UInt8.toNat_ofNat'] at this
        omega
      rw [char_ext e1, ih (fun x hx => hs x (by simp [hx])) (fun x hx => ht x (by simp [hx])) e.2]

/-! ## Programs -/

theorem showNat_inj {m n : Nat} (h : showNat m = showNat n) : m = n := by
  have h1 := readNat_show (m + n + 1) m (by omega)
  have h2 := readNat_show (m + n + 1) n (by omega)
  rw [h, h2] at h1
  exact (Option.some.inj h1).symm

theorem hints_inj {l l' : List (Nat × List Json)} (h : l.map (fun p => (showNat p.1, Json.arr p.2)) = l'.map (fun p => (showNat p.1, Json.arr p.2))) : l = l' := by
  induction l generalizing l' with
  | nil => cases l' <;> simp at h ⊢
  | cons p l ih =>
    cases l' with
    | nil => simp at h
    | cons q l' =>
      simp only [List.map_cons, List.cons.injEq, Prod.mk.injEq, Json.arr.injEq] at h
      rw [ih h.2, Prod.ext (showNat_inj h.1.1) h.1.2]

theorem strs_inj {l l' : List Str} (h : l.map Json.str = l'.map Json.str) : l = l' := by
  induction l generalizing l' with
  | nil => cases l' <;> simp at h ⊢
  | cons p l ih =>
    cases l' with
    | nil => simp at h
    | cons q l' =>
      simp only [List.map_cons, List.cons.injEq, Json.str.injEq] at h
      rw [ih h.2, h.1]

theorem strs_ok (l : List Str) : ItemsOk (l.map Json.str) := by
  induction l with
  | nil => simp [ItemsOk]
  | cons x l ih => simp only [List.map_cons, ItemsOk, Json.Ok, true_and]; exact ih

theorem fieldsOk_append {l l' : List (Str × Json)} (h : FieldsOk l) (h' : FieldsOk l') : FieldsOk (l ++ l') := by
  induction l with
  | nil => exact h'
  | cons f l ih => obtain ⟨k, v⟩ := f; simp only [List.cons_append, FieldsOk] at h ⊢; exact ⟨h.1, ih h.2⟩

theorem hints_ok {l : List (Nat × List Json)} (h : ∀ p ∈ l, ItemsOk p.2) : FieldsOk (l.map (fun p => (showNat p.1, Json.arr p.2))) := by
  induction l with
  | nil => simp [FieldsOk]
  | cons p l ih => simp only [List.map_cons, FieldsOk, Json.Ok]; exact ⟨h p (by simp), ih fun q hq => h q (by simp [hq])⟩

/-- The parts of a program that are printed. -/
theorem programJson_inj {p q : Program} (hp : p.debugInfo = none) (hq : q.debugInfo = none) (h : programJson p = programJson q) :
    p.attributes = q.attributes ∧ p.builtins = q.builtins ∧ p.compilerVersion = q.compilerVersion ∧ p.data = q.data ∧ p.hints = q.hints ∧
    p.identifiers = q.identifiers ∧ p.mainScope = q.mainScope ∧ p.prime = q.prime ∧ p.referenceManager = q.referenceManager := by
  obtain ⟨pa, pb, pc, pd, pe, ph, pi, pm, pp, pr⟩ := p
  obtain ⟨qa, qb, qc, qd, qe, qh, qi, qm, qp, qr⟩ := q
  simp only at hp hq
  subst hp; subst hq
  simp only [programJson, hintsJson, Json.obj.injEq] at h
  have k1 : "attributes".toList ≠ "builtins".toList := by decide
  have k2 : "compiler_version".toList ≠ "data".toList := by decide
  cases pa <;> cases qa <;> cases pc <;> cases qc <;>
    simp only [List.isEmpty_nil, List.isEmpty_cons, if_true, List.nil_append, List.cons_append, List.cons.injEq, Prod.mk.injEq, Json.arr.injEq,
      Json.obj.injEq, Json.str.injEq, true_and, and_true, k1, k2, k1.symm, k2.symm, false_and, and_false, Bool.false_eq_true, if_false] at h
  all_goals
    try (simp only [List.cons.injEq, Option.some.injEq, true_and])
    first
      | exact ⟨strs_inj h.1, strs_inj h.2.1, hints_inj h.2.2.1, h.2.2.2.1, h.2.2.2.2.1, h.2.2.2.2.2.1, h.2.2.2.2.2.2⟩
      | exact ⟨strs_inj h.1, h.2.1, strs_inj h.2.2.1, hints_inj h.2.2.2.1, h.2.2.2.2.1, h.2.2.2.2.2.1, h.2.2.2.2.2.2.1, h.2.2.2.2.2.2.2⟩
      | exact ⟨h.1, strs_inj h.2.1, strs_inj h.2.2.1, hints_inj h.2.2.2.1, h.2.2.2.2.1, h.2.2.2.2.2.1, h.2.2.2.2.2.2.1, h.2.2.2.2.2.2.2⟩
      | exact ⟨h.1, strs_inj h.2.1, h.2.2.1, strs_inj h.2.2.2.1, hints_inj h.2.2.2.2.1, h.2.2.2.2.2.1, h.2.2.2.2.2.2.1, h.2.2.2.2.2.2.2.1, h.2.2.2.2.2.2.2.2⟩

theorem programJson_ok {p : Program} (ha : ItemsOk p.attributes) (hh : ∀ x ∈ p.hints, ItemsOk x.2) (hi : p.identifiers.Ok)
    (hr : p.referenceManager.Ok) : (programJson p).Ok := by
  simp only [programJson, Json.Ok]
  apply fieldsOk_append
  · split
    · simp [FieldsOk]
    · simp only [FieldsOk, Json.Ok, and_true]; exact ha
  · simp only [FieldsOk, Json.Ok]
    refine ⟨strs_ok _, fieldsOk_append ?_ ?_⟩
    · cases p.compilerVersion <;> simp [FieldsOk, Json.Ok]
    · simp only [FieldsOk, Json.Ok, and_true, true_and]
      refine ⟨strs_ok _, ?_, hints_ok hh, hi, hr⟩
      cases p.debugInfo <;> simp [Json.Ok]

end Verif.Class
