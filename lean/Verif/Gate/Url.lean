import Verif.Gate.Spec
import Verif.Crypto.FeltProps

namespace Verif.Gate

open Verif.Crypto (Bytes toHexStr)
open Verif.Gate.Spec

/-! ### Escaping -/

theorem hexVal_hexDigit {n : Nat} (h : n < 16) : hexVal (hexDigit n) = some n := by
  simp only [hexVal, hexDigit]
  split
  · rw [if_pos (by omega)]; simp
  · rw [if_neg (by omega), if_pos (by omega)]; simp

theorem unescape_plain {b : Nat} {bs : Bytes} (h1 : b ≠ 43) (h2 : b ≠ 37) :
    unescape (b :: bs) = b :: unescape bs := by
  rw [unescape.eq_def]
  split
  · rename_i h; exact absurd h (by simp)
  · rename_i h; simp only [List.cons.injEq] at h; exact absurd h.1 h1
  · rename_i h; simp only [List.cons.injEq] at h; exact absurd h.1 h2
  · rename_i h; simp only [List.cons.injEq] at h; rw [h.1, h.2]

theorem unescape_hex {h l : Nat} {bs : Bytes} (hh : h < 16) (hl : l < 16) :
    unescape (37 :: hexDigit h :: hexDigit l :: bs) = (16 * h + l) :: unescape bs := by
  rw [unescape.eq_3]
  simp only [hexVal_hexDigit hh, hexVal_hexDigit hl]

theorem unescape_enc (bs : Bytes) (h : ∀ b ∈ bs, b < 256) : unescape (bs.flatMap encByte) = bs := by
  induction bs with
  | nil => rfl
  | cons b bs ih =>
    have hb := h b (by simp)
    have ih := ih (fun x hx => h x (by simp [hx]))
    rw [List.flatMap_cons]
    simp only [encByte]
    split
    · rename_i hk
      rw [List.singleton_append, unescape_plain (by omega) (by omega), ih]
    · split
      · rename_i h32
        rw [List.singleton_append, unescape, ih, h32]
      · show unescape (37 :: hexDigit (b / 16) :: hexDigit (b % 16) :: bs.flatMap encByte) = _
        rw [unescape_hex (by omega) (by omega), ih]
        congr 1
        omega

/-- None of the separators is left in an escaped text. -/
theorem enc_no_sep (bs : Bytes) : ∀ c ∈ bs.flatMap encByte, c ≠ 38 ∧ c ≠ 61 := by
  intro c hc
  obtain ⟨b, _, hc⟩ := List.mem_flatMap.mp hc
  simp only [encByte] at hc
  split at hc
  · simp only [List.mem_singleton] at hc; omega
  · split at hc
    · simp only [List.mem_singleton] at hc; omega
    · simp only [List.mem_cons, List.not_mem_nil, or_false] at hc
      have hx : ∀ n, hexDigit n ≠ 38 ∧ hexDigit n ≠ 61 ∨ 16 ≤ n := by
        intro n
        simp only [hexDigit]
        split <;> omega
      rcases hc with hc | hc | hc
      · omega
      · have := hx (b / 16)
        simp only [hexDigit] at hc
        split at hc <;> omega
      · have := hx (b % 16)
        simp only [hexDigit] at hc
        split at hc <;> omega

/-! ### Splitting -/

theorem cut_none {c : Nat} {a : Bytes} (h : c ∉ a) : cut c a = (a, none) := by
  induction a with
  | nil => rfl
  | cons b a ih =>
    simp only [List.mem_cons, not_or] at h
    simp only [cut, ih h.2]
    rw [if_neg (fun e => h.1 e.symm)]

theorem cut_some {c : Nat} {a b : Bytes} (h : c ∉ a) : cut c (a ++ c :: b) = (a, some b) := by
  induction a with
  | nil => simp [cut]
  | cons x a ih =>
    simp only [List.mem_cons, not_or] at h
    simp only [List.cons_append, cut, ih h.2]
    rw [if_neg (fun e => h.1 e.symm)]

theorem pieces_none {c : Nat} {a : Bytes} (h : c ∉ a) : pieces c a = [a] := by
  induction a with
  | nil => rfl
  | cons b a ih =>
    simp only [List.mem_cons, not_or] at h
    simp only [pieces, ih h.2]
    rw [if_neg (fun e => h.1 e.symm)]

theorem pieces_some {c : Nat} {a b : Bytes} (h : c ∉ a) : pieces c (a ++ c :: b) = a :: pieces c b := by
  induction a with
  | nil => simp [pieces]
  | cons x a ih =>
    simp only [List.mem_cons, not_or] at h
    simp only [List.cons_append, pieces, ih h.2]
    rw [if_neg (fun e => h.1 e.symm)]

def encPair (p : Bytes × Bytes) : Bytes := p.1.flatMap encByte ++ 61 :: p.2.flatMap encByte

theorem encPair_no_amp (p : Bytes × Bytes) : 38 ∉ encPair p := by
  intro h
  simp only [encPair, List.mem_append, List.mem_cons] at h
  rcases h with h | h | h
  · exact (enc_no_sep _ _ h).1 rfl
  · omega
  · exact (enc_no_sep _ _ h).1 rfl

theorem pieces_encQuery : ∀ ps : List (Bytes × Bytes), ps ≠ [] → pieces 38 (encQuery ps) = ps.map encPair := by
  intro ps
  induction ps with
  | nil => intro h; exact absurd rfl h
  | cons p ps ih =>
    intro _
    obtain ⟨k, v⟩ := p
    cases ps with
    | nil =>
      show pieces 38 (encPair (k, v)) = _
      rw [pieces_none (encPair_no_amp _)]
      rfl
    | cons q qs =>
      have e : encQuery ((k, v) :: q :: qs) = encPair (k, v) ++ 38 :: encQuery (q :: qs) := by
        simp [encQuery, encPair]
      rw [e, pieces_some (encPair_no_amp _), ih (by simp)]
      rfl

theorem readQuery_enc (ps : List (Bytes × Bytes)) (h : ∀ p ∈ ps, (∀ b ∈ p.1, b < 256) ∧ ∀ b ∈ p.2, b < 256) :
    readQuery (encQuery ps) = ps := by
  by_cases h0 : ps = []
  · subst h0; rfl
  · simp only [readQuery, pieces_encQuery ps h0]
    have hf : (ps.map encPair).filter (fun p => !p.isEmpty) = ps.map encPair := by
      rw [List.filter_eq_self]
      intro x hx
      obtain ⟨p, _, rfl⟩ := List.mem_map.mp hx
      simp [encPair]
    rw [hf, List.map_map]
    conv => rhs; rw [← List.map_id ps]
    apply List.map_congr_left
    intro p hp
    obtain ⟨h1, h2⟩ := h p hp
    have hc : cut 61 (encPair p) = (p.1.flatMap encByte, some (p.2.flatMap encByte)) :=
      cut_some (fun hm => (enc_no_sep _ _ hm).2 rfl)
    simp only [Function.comp, hc, Option.getD, unescape_enc p.1 h1, unescape_enc p.2 h2, id]

theorem readUrl_urlOf (r : Request) (hm : 63 ∉ r.method)
    (h : ∀ p ∈ r.query, (∀ b ∈ p.1, b < 256) ∧ ∀ b ∈ p.2, b < 256) :
    readUrl r.base (urlOf r) = some (r.method, r.query) := by
  have hpre : r.base ++ [47] <+: urlOf r := by
    refine ⟨r.method ++ (if r.query.isEmpty then [] else 63 :: encQuery r.query), ?_⟩
    simp [urlOf]
  have hd : (urlOf r).drop (r.base.length + 1) =
      r.method ++ (if r.query.isEmpty then [] else 63 :: encQuery r.query) := by
    have : urlOf r = (r.base ++ [47]) ++ (r.method ++ (if r.query.isEmpty then [] else 63 :: encQuery r.query)) := by
      simp [urlOf]
    rw [this, List.drop_append_of_le_length (by simp), List.drop_of_length_le (by simp)]
    rfl
  simp only [readUrl, if_pos hpre, hd]
  by_cases h0 : r.query = []
  · simp only [h0, List.isEmpty_nil, if_true, List.append_nil, cut_none hm, Option.getD]
    rfl
  · have : r.query.isEmpty = false := by simp [h0]
    simp only [this, Bool.false_eq_true, if_false, cut_some hm, Option.getD, readQuery_enc _ h]

/-! ### Numbers and hashes -/

theorem foldl_dec (n : Nat) :
    ((Events.TokenText.showNat n).map Char.toNat).foldl (fun a c => 10 * a + (c - 48)) 0 = n := by
  induction n using Events.TokenText.showNat.induct with
  | case1 n h =>
    rw [Events.TokenText.showNat, if_pos h]
    simp [Events.TokenText.digitChar_toNat h]
  | case2 n h ih =>
    rw [Events.TokenText.showNat, if_neg h, List.map_append, List.foldl_append, ih]
    simp only [List.map_cons, List.map_nil, List.foldl_cons, List.foldl_nil,
      Events.TokenText.digitChar_toNat (show n % 10 < 10 by omega)]
    omega

theorem dec_bytes (n : Nat) : ∀ b ∈ (Events.TokenText.showNat n).map Char.toNat, 48 ≤ b ∧ b ≤ 57 := by
  intro b hb
  obtain ⟨c, hc, rfl⟩ := List.mem_map.mp hb
  have := Events.TokenText.showNat_digits n c hc
  omega

theorem readDec_show (n : Nat) : readDec ((Events.TokenText.showNat n).map Char.toNat) = some n := by
  have h1 : (Events.TokenText.showNat n).map Char.toNat ≠ [] := by
    simp [Events.TokenText.showNat_ne]
  have h2 : ((Events.TokenText.showNat n).map Char.toNat).all (fun c => decide (48 ≤ c ∧ c ≤ 57)) = true := by
    rw [List.all_eq_true]
    intro b hb
    simp only [decide_eq_true_eq]
    exact dec_bytes n b hb
  simp only [readDec, foldl_dec]
  rw [if_pos ⟨h1, h2⟩]

theorem dec_not_tag (n : Nat) :
    (Events.TokenText.showNat n).map Char.toNat ≠ str "latest" ∧
    (Events.TokenText.showNat n).map Char.toNat ≠ str "pending" := by
  constructor
  · intro e
    have := dec_bytes n 108 (by rw [e]; decide)
    omega
  · intro e
    have := dec_bytes n 112 (by rw [e]; decide)
    omega

theorem denotes_bytes {s : List Nat} {n : Nat} (h : Crypto.Denotes s n) : ∀ b ∈ s, b < 256 := by
  induction h with
  | nil => simp
  | snoc _ hd ih =>
    intro b hb
    rw [List.mem_append, List.mem_singleton] at hb
    rcases hb with hb | rfl
    · exact ih b hb
    · unfold Crypto.HexDigit at hd; omega

theorem hash_bytes {h : Bytes} (hf : ∃ n, Crypto.FeltOf h n) : ∀ b ∈ toHexStr h, b < 256 := by
  obtain ⟨n, hf⟩ := hf
  obtain ⟨d, e, hd, _⟩ := (Crypto.C28_to_hex hf).ex
  intro b hb
  rw [e] at hb
  simp only [List.mem_cons] at hb
  rcases hb with rfl | rfl | hb
  · omega
  · omega
  · exact denotes_bytes hd b hb

theorem readHash_hex {h : Bytes} (hf : ∃ n, Crypto.FeltOf h n) : readHash (toHexStr h) = some h := by
  obtain ⟨n, hf⟩ := hf
  simp only [readHash, (Crypto.C28_hex_round_trip (buf := List.replicate 66 0) hf (by simp)).1]

theorem str_bytes_block (b : BlockId) (hb : BlockOk b) :
    (∀ x ∈ (blockParam b).1, x < 256) ∧ ∀ x ∈ (blockParam b).2, x < 256 := by
  cases b with
  | number n =>
    refine ⟨?_, fun x hx => by have := dec_bytes n x hx; omega⟩
    show ∀ x ∈ str "blockNumber", x < 256
    decide
  | hash h =>
    refine ⟨?_, hash_bytes hb⟩
    show ∀ x ∈ str "blockHash", x < 256
    decide
  | latest => exact ⟨by decide, by decide⟩
  | pending => exact ⟨by decide, by decide⟩

/-- The block that a parameter names, among parameters with other names. -/
theorem readBlock_param (b : BlockId) (hb : BlockOk b) (pre post : List (Bytes × Bytes))
    (hpre : ∀ p ∈ pre, p.1 ≠ str "blockHash" ∧ p.1 ≠ str "blockNumber")
    (hpost : ∀ p ∈ post, p.1 ≠ str "blockHash" ∧ p.1 ≠ str "blockNumber") :
    readBlock (pre ++ blockParam b :: post) = some b := by
  have f1 : ∀ (name : String) (x : Bytes × Bytes), (∀ p ∈ pre, p.1 ≠ str name) → x.1 = str name →
      param (pre ++ x :: post) name = some x.2 := by
    intro name x h1 h2
    have hn : pre.find? (fun p => p.1 == str name) = none := by
      rw [List.find?_eq_none]
      intro p hp
      simpa using h1 p hp
    simp [param, List.find?_append, hn, h2]
  have f2 : ∀ (name : String) (x : Bytes × Bytes), (∀ p ∈ pre, p.1 ≠ str name) → (∀ p ∈ post, p.1 ≠ str name) →
      x.1 ≠ str name → param (pre ++ x :: post) name = none := by
    intro name x h1 h2 h3
    have : (pre ++ x :: post).find? (fun p => p.1 == str name) = none := by
      rw [List.find?_eq_none]
      intro p hp
      rw [List.mem_append, List.mem_cons] at hp
      rcases hp with hp | rfl | hp
      · simpa using h1 p hp
      · simpa using h3
      · simpa using h2 p hp
    simp only [param, this, Option.map_none]
  cases b with
  | hash h =>
    have := f1 "blockHash" (blockParam (.hash h)) (fun p hp => (hpre p hp).1) rfl
    simp only [readBlock, this]
    simp only [blockParam, readHash_hex hb, Option.map_some]
  | number n =>
    have h1 := f2 "blockHash" (blockParam (.number n)) (fun p hp => (hpre p hp).1) (fun p hp => (hpost p hp).1)
      (show str "blockNumber" ≠ str "blockHash" by decide)
    have h2 := f1 "blockNumber" (blockParam (.number n)) (fun p hp => (hpre p hp).2) rfl
    simp only [readBlock, h1, h2]
    simp only [blockParam, (dec_not_tag n).1, (dec_not_tag n).2, if_false, readDec_show, Option.map_some]
  | latest =>
    have h1 := f2 "blockHash" (blockParam .latest) (fun p hp => (hpre p hp).1) (fun p hp => (hpost p hp).1) (by decide)
    have h2 := f1 "blockNumber" (blockParam .latest) (fun p hp => (hpre p hp).2) rfl
    simp only [readBlock, h1, h2]
    simp [blockParam]
  | pending =>
    have h1 := f2 "blockHash" (blockParam .pending) (fun p hp => (hpre p hp).1) (fun p hp => (hpost p hp).1) (by decide)
    have h2 := f1 "blockNumber" (blockParam .pending) (fun p hp => (hpre p hp).2) rfl
    simp only [readBlock, h1, h2]
    simp only [blockParam]
    rw [if_neg (by decide)]
    simp

end Verif.Gate
