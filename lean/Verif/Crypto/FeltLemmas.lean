import Mathlib.Data.List.Basic
import Mathlib.Data.List.Induction
import Mathlib.Data.List.GetD
import Mathlib.Data.List.TakeWhile
import Mathlib.Tactic.Linarith
import Mathlib.Tactic.LinearCombination
import Mathlib.Tactic.Ring
import Verif.Crypto.Felt
import Verif.Crypto.FeltSpec
/-! Lemmas about the codecs of field elements. -/
namespace Verif.Crypto

theorem beNat_snoc (l : Bytes) (b : Nat) : beNat (l ++ [b]) = 256 * beNat l + b := by simp [beNat]

theorem beNat_append (l r : Bytes) : beNat (l ++ r) = beNat l * 256 ^ r.length + beNat r := by
  induction r using List.reverseRecOn with
  | nil => simp [beNat]
  | append_singleton r b ih =>
    rw [← List.append_assoc, beNat_snoc, ih, beNat_snoc, List.length_append, List.length_singleton, pow_succ]
    ring

theorem beNat_zeros (n : Nat) : beNat (List.replicate n 0) = 0 := by
  induction n with
  | zero => rfl
  | succ n ih => rw [List.replicate_succ', beNat_snoc, ih]

theorem beNat_lt {l : Bytes} (h : ∀ b ∈ l, b < 256) : beNat l < 256 ^ l.length := by
  induction l using List.reverseRecOn with
  | nil => simp [beNat]
  | append_singleton r b ih =>
    have h1 := ih fun x hx => h x (List.mem_append_left _ hx)
    have h2 := h b (by simp)
    rw [beNat_snoc, List.length_append, List.length_singleton, pow_succ]
    omega

theorem beNat_inj {l r : Bytes} (hl : ∀ b ∈ l, b < 256) (hr : ∀ b ∈ r, b < 256) (hlen : l.length = r.length)
    (h : beNat l = beNat r) : l = r := by
  induction l using List.reverseRecOn generalizing r with
  | nil => exact (List.length_eq_zero_iff.1 hlen.symm).symm
  | append_singleton l b ih =>
    rcases List.eq_nil_or_concat r with rfl | ⟨r, c, rfl⟩
    · simp at hlen
    · rw [List.concat_eq_append] at *
      rw [beNat_snoc, beNat_snoc] at h
      have h1 := hl b (by simp)
      have h2 := hr c (by simp)
      have : b = c := by omega
      subst this
      rw [ih (r := r) (fun x hx => hl x (List.mem_append_left _ hx)) (fun x hx => hr x (List.mem_append_left _ hx))
        (by simpa using hlen) (by omega)]

theorem natBytes_spec (n x : Nat) : (natBytes n x).length = n ∧ (∀ b ∈ natBytes n x, b < 256) ∧
    beNat (natBytes n x) = x % 256 ^ n := by
  induction n generalizing x with
  | zero => simp [natBytes, beNat, Nat.mod_one]
  | succ n ih =>
    obtain ⟨h1, h2, h3⟩ := ih (x / 256)
    refine ⟨by simp [natBytes, h1], ?_, ?_⟩
    · intro b hb
      rw [natBytes, List.mem_append, List.mem_singleton] at hb
      rcases hb with hb | rfl
      · exact h2 b hb
      · exact Nat.mod_lt _ (by decide)
    · rw [natBytes, beNat_snoc, h3, pow_succ, Nat.mul_comm (256 ^ n), Nat.mod_mul, Nat.add_comm]

/-! ## Bytes -/

theorem take8_lt {b : Bytes} (h : ∀ x ∈ b, x < 256) (i : Nat) : beNat ((b.drop i).take 8) < W := by
  have h1 := beNat_lt (l := (b.drop i).take 8) fun x hx => h x (List.mem_of_mem_drop (List.mem_of_mem_take hx))
  have h2 : ((b.drop i).take 8).length ≤ 8 := by rw [List.length_take]; omega
  have h3 := Nat.pow_le_pow_right (n := 256) (by decide) h2
  have h4 : 256 ^ 8 = W := by decide
  omega

theorem beNat_split {b : Bytes} (h : b.length = 32) : beNat b = beNat (b.take 8) * W ^ 3 + beNat ((b.drop 8).take 8) * W ^ 2 +
    beNat ((b.drop 16).take 8) * W + beNat ((b.drop 24).take 8) := by
  have e : b = b.take 8 ++ ((b.drop 8).take 8 ++ ((b.drop 16).take 8 ++ (b.drop 24).take 8)) := by
    have h1 : (b.drop 24).take 8 = b.drop 24 := List.take_of_length_le (by rw [List.length_drop]; omega)
    have h2 : (b.drop 16).take 8 ++ b.drop 24 = b.drop 16 := by
      have := List.take_append_drop 8 (b.drop 16)
      rw [List.drop_drop] at this
      exact this
    have h3 : (b.drop 8).take 8 ++ b.drop 16 = b.drop 8 := by
      have := List.take_append_drop 8 (b.drop 8)
      rw [List.drop_drop] at this
      exact this
    rw [h1, h2, h3, List.take_append_drop]
  conv_lhs => rw [e]
  rw [beNat_append, beNat_append, beNat_append]
  simp only [List.length_append, List.length_take, List.length_drop, h]
  norm_num
  ring

theorem limbsOfBytes_spec {b : Bytes} (h : b.length = 32) (hb : ∀ x ∈ b, x < 256) :
    (limbsOfBytes b).Ok ∧ (limbsOfBytes b).nat = beNat b := by
  refine ⟨⟨take8_lt hb 24, take8_lt hb 16, take8_lt hb 8, take8_lt hb 0⟩, ?_⟩
  rw [beNat_split h]
  unfold limbsOfBytes Limbs.nat
  simp only
  ring

theorem wordsBelow_spec {a b c d : Nat} (hb : b < W) (hc : c < W) (hd : d < W) :
    wordsBelow [a, b, c, d] modulusU64 = true ↔ a * W ^ 3 + b * W ^ 2 + c * W + d < Kind.felt.prime := by
  have hp : Kind.felt.prime = 576460752303423505 * W ^ 3 + 1 := by decide +kernel
  rw [hp]
  simp only [wordsBelow, modulusU64]
  have e3 : W ^ 3 = W * W ^ 2 := by ring
  have e2 : W ^ 2 = W * W := by ring
  have k1 : b * W ^ 2 ≤ (W - 1) * W ^ 2 := Nat.mul_le_mul_right _ (by omega)
  have k2 : c * W ≤ (W - 1) * W := Nat.mul_le_mul_right _ (by omega)
  rcases Nat.lt_trichotomy a 576460752303423505 with h | h | h
  · rw [if_pos h]
    have : (a + 1) * W ^ 3 ≤ 576460752303423505 * W ^ 3 := Nat.mul_le_mul_right _ h
    simp only [true_iff]
    have e : (W - 1) * W ^ 2 + (W - 1) * W + W = W ^ 3 := by decide
    rw [Nat.add_mul, Nat.one_mul] at this
    omega
  · subst h
    rw [if_neg (by omega), if_neg (by omega)]
    rcases Nat.eq_zero_or_pos b with rfl | h
    · rw [if_neg (by omega), if_neg (by omega)]
      rcases Nat.eq_zero_or_pos c with rfl | h
      · rw [if_neg (by omega), if_neg (by omega)]
        rcases Nat.eq_zero_or_pos d with rfl | h
        · simp
        · rw [if_neg (by omega)]
          by_cases h1 : d > 1
          · rw [if_pos h1]; simp; omega
          · rw [if_neg h1]; simp; omega
      · rw [if_neg (by omega), if_pos h]
        simp only [Bool.false_eq_true, false_iff]
        have : 1 * W ≤ c * W := Nat.mul_le_mul_right _ h
        omega
    · rw [if_neg (by omega), if_pos h]
      simp only [Bool.false_eq_true, false_iff]
      have : 1 * W ^ 2 ≤ b * W ^ 2 := Nat.mul_le_mul_right _ h
      have h2 : 2 ≤ 1 * W ^ 2 := by decide
      omega
  · rw [if_neg (by omega), if_pos h]
    simp only [Bool.false_eq_true, false_iff]
    have : (576460752303423505 + 1) * W ^ 3 ≤ a * W ^ 3 := Nat.mul_le_mul_right _ h
    rw [Nat.add_mul] at this
    have h2 : 2 ≤ 1 * W ^ 3 := by decide
    omega

theorem feltFromBytes_spec {b : Bytes} (h : b.length = 32) (hb : ∀ x ∈ b, x < 256) :
    feltFromBytes b = if beNat b < Kind.felt.prime then some b else none := by
  rw [feltFromBytes, beNat_split h]
  simp only [words, wordsBelow_spec (take8_lt hb 8) (take8_lt hb 16) (take8_lt hb 24)]

/-! ## Hex digits -/

theorem parse_iff {c d : Nat} : parseHexDigit c = .ok d ↔ HexDigit c d := by
  unfold parseHexDigit HexDigit
  split
  · simp only [Except.ok.injEq]; omega
  · split
    · simp only [Except.ok.injEq]; omega
    · split
      · simp only [Except.ok.injEq]; omega
      · simp only [reduceCtorEq, false_iff]; omega

theorem parse_error {c : Nat} {e : HexError} (h : parseHexDigit c = .error e) :
    e = .invalidNibble c ∧ ∀ d, ¬ HexDigit c d := by
  refine ⟨?_, fun d hd => by rw [parse_iff.2 hd] at h; cases h⟩
  revert h
  unfold parseHexDigit
  split
  · simp
  · split
    · simp
    · split
      · simp
      · simp only [Except.error.injEq]; exact fun h => h.symm

theorem HexDigit.lt {c d : Nat} (h : HexDigit c d) : d < 16 := by unfold HexDigit at h; omega

theorem HexDigit.unique {c d e : Nat} (h : HexDigit c d) (h' : HexDigit c e) : d = e := by unfold HexDigit at *; omega

theorem Denotes.nil_iff {n : Nat} : Denotes [] n ↔ n = 0 := by
  constructor
  · generalize hs : ([] : List Nat) = s
    intro h
    cases h with
    | nil => rfl
    | snoc _ _ => simp at hs
  · rintro rfl; exact .nil

theorem Denotes.snoc_iff {s : List Nat} {c n : Nat} : Denotes (s ++ [c]) n ↔ ∃ k d, Denotes s k ∧ HexDigit c d ∧ n = 16 * k + d := by
  constructor
  · generalize hs : s ++ [c] = t
    intro h
    cases h with
    | nil => simp at hs
    | snoc h1 h2 =>
      obtain ⟨rfl, e⟩ := List.append_inj' hs rfl
      cases e
      exact ⟨_, _, h1, h2, rfl⟩
  · rintro ⟨k, d, h1, h2, rfl⟩; exact .snoc h1 h2

theorem Denotes.unique {s : List Nat} {n k : Nat} (h : Denotes s n) (h' : Denotes s k) : n = k := by
  induction s using List.reverseRecOn generalizing n k with
  | nil => rw [nil_iff] at *; omega
  | append_singleton s c ih =>
    obtain ⟨x, d, h1, h2, rfl⟩ := snoc_iff.1 h
    obtain ⟨y, e, h3, h4, rfl⟩ := snoc_iff.1 h'
    rw [ih h1 h3, h2.unique h4]

theorem Denotes.digits {s : List Nat} {n : Nat} (h : Denotes s n) : ∀ c ∈ s, ∃ d, HexDigit c d := by
  induction h with
  | nil => simp
  | snoc _ h2 ih =>
    intro c hc
    rcases List.mem_append.1 hc with hc | hc
    · exact ih c hc
    · rw [List.mem_singleton] at hc; subst hc; exact ⟨_, h2⟩

theorem Denotes.exists {s : List Nat} (h : ∀ c ∈ s, ∃ d, HexDigit c d) : ∃ n, Denotes s n := by
  induction s using List.reverseRecOn with
  | nil => exact ⟨0, .nil⟩
  | append_singleton s c ih =>
    obtain ⟨n, hn⟩ := ih fun x hx => h x (List.mem_append_left _ hx)
    obtain ⟨d, hd⟩ := h c (by simp)
    exact ⟨_, .snoc hn hd⟩

theorem Denotes.append_iff {s t : List Nat} {n : Nat} : Denotes (s ++ t) n ↔
    ∃ a b, Denotes s a ∧ Denotes t b ∧ n = a * 16 ^ t.length + b := by
  induction t using List.reverseRecOn generalizing n with
  | nil =>
    constructor
    · intro h; exact ⟨n, 0, by simpa using h, .nil, by simp⟩
    · rintro ⟨a, b, h1, h2, rfl⟩
      rw [nil_iff] at h2; subst h2; simpa using h1
  | append_singleton t c ih =>
    rw [← List.append_assoc, snoc_iff, List.length_append, List.length_singleton, pow_succ]
    constructor
    · rintro ⟨k, d, h1, h2, rfl⟩
      obtain ⟨a, b, h3, h4, rfl⟩ := ih.1 h1
      exact ⟨a, _, h3, .snoc h4 h2, by ring⟩
    · rintro ⟨a, b, h1, h2, rfl⟩
      obtain ⟨k, d, h3, h4, rfl⟩ := snoc_iff.1 h2
      exact ⟨_, d, ih.2 ⟨a, k, h1, h3, rfl⟩, h4, by ring⟩

/-! ## Reading hex -/

theorem set_take {X : Bytes} {T : Bytes} {k v : Nat} (hX : X.length = 32) (hk : k < 32) :
    (X.take (32 - k) ++ T).set (31 - k) v = X.take (32 - (k + 1)) ++ v :: T := by
  have h1 : X.take (32 - k) = X.take (31 - k) ++ [X[31 - k]'(by omega)] := by
    have : 32 - k = 31 - k + 1 := by omega
    rw [this, List.take_succ_eq_append_getElem]
  have h2 : (X.take (31 - k)).length = 31 - k := by rw [List.length_take]; omega
  rw [h1, List.append_assoc, List.set_append_right _ _ (by omega), h2, Nat.sub_self]
  have : 32 - (k + 1) = 31 - k := by omega
  rw [this]; rfl

/-- The loop reads the digits from the back. -/
theorem hexLoop_spec (p : Bytes) (rem : Nat) (q s : Bytes) (X T : Bytes) (chunk : Nat) (hq : q.length = 2 * rem)
    (hs : s.length = 2 * chunk) (hX : X.length = 32) (hc : chunk + rem ≤ 32) :
    (∃ T' n, hexLoop (p ++ q ++ s) rem chunk (X.take (32 - chunk) ++ T) = .ok (X.take (32 - chunk - rem) ++ (T' ++ T)) ∧
      T'.length = rem ∧ (∀ b ∈ T', b < 256) ∧ Denotes q n ∧ beNat T' = n) ∨
    (∃ c ∈ q, hexLoop (p ++ q ++ s) rem chunk (X.take (32 - chunk) ++ T) = .error (.invalidNibble c) ∧ ∀ d, ¬ HexDigit c d) := by
  induction rem generalizing q s T chunk with
  | zero =>
    left
    have : q = [] := List.length_eq_zero_iff.1 (by omega)
    subst this
    exact ⟨[], 0, by simp [hexLoop], rfl, by simp, .nil, rfl⟩
  | succ rem ih =>
    obtain ⟨q', u, l, rfl⟩ : ∃ q' u l, q = q' ++ [u, l] := by
      rcases List.eq_nil_or_concat q with rfl | ⟨q1, l, rfl⟩
      · simp at hq
      · rcases List.eq_nil_or_concat q1 with rfl | ⟨q2, u, rfl⟩
        · simp at hq; omega
        · exact ⟨q2, u, l, by simp⟩
    have hq' : q'.length = 2 * rem := by simp at hq; omega
    have hlen : (p ++ (q' ++ [u, l]) ++ s).length = p.length + (2 * rem + 2) + 2 * chunk := by
      simp only [List.length_append, hs, hq']; simp
    have hl : (p ++ (q' ++ [u, l]) ++ s).getD ((p ++ (q' ++ [u, l]) ++ s).length - chunk * 2 - 1) 0 = l := by
      rw [hlen]
      have e : p ++ (q' ++ [u, l]) ++ s = (p ++ q' ++ [u]) ++ l :: s := by simp
      rw [e, List.getD_append_right _ _ _ _ (by simp; omega)]
      have : p.length + (2 * rem + 2) + 2 * chunk - chunk * 2 - 1 - (p ++ q' ++ [u]).length = 0 := by simp [hq']; omega
      rw [this]; rfl
    have hu : (p ++ (q' ++ [u, l]) ++ s).getD ((p ++ (q' ++ [u, l]) ++ s).length - chunk * 2 - 2) 0 = u := by
      rw [hlen]
      have e : p ++ (q' ++ [u, l]) ++ s = (p ++ q') ++ u :: l :: s := by simp
      rw [e, List.getD_append_right _ _ _ _ (by simp; omega)]
      have : p.length + (2 * rem + 2) + 2 * chunk - chunk * 2 - 2 - (p ++ q').length = 0 := by simp [hq']; omega
      rw [this]; rfl
    rw [hexLoop, hl, hu]
    cases el : parseHexDigit l with
    | error e =>
      obtain ⟨rfl, h2⟩ := parse_error el
      exact .inr ⟨l, by simp, rfl, h2⟩
    | ok dl =>
      cases eu : parseHexDigit u with
      | error e =>
        obtain ⟨rfl, h2⟩ := parse_error eu
        exact .inr ⟨u, by simp, rfl, h2⟩
      | ok du =>
        have dl' := parse_iff.1 el
        have du' := parse_iff.1 eu
        simp only
        rw [set_take hX (by omega)]
        have e : p ++ (q' ++ [u, l]) ++ s = p ++ q' ++ ([u, l] ++ s) := by simp
        rw [e]
        rcases ih q' ([u, l] ++ s) ((16 * du + dl) :: T) (chunk + 1) hq' (by simp [hs]; omega) (by omega) with
          ⟨T', n, h1, h2, h3, h4, h5⟩ | ⟨c, hcq, h1, h2⟩
        · left
          refine ⟨T' ++ [16 * du + dl], 16 * (16 * n + du) + dl, ?_, by simp [h2], ?_, ?_, ?_⟩
          · rw [h1, Nat.sub_sub, Nat.sub_sub, Nat.add_assoc, Nat.add_comm 1]
            simp
          · intro b hb
            rcases List.mem_append.1 hb with hb | hb
            · exact h3 b hb
            · rw [List.mem_singleton] at hb
              have := dl'.lt
              have := du'.lt
              omega
          · have := Denotes.snoc (Denotes.snoc h4 du') dl'
            simpa using this
          · rw [beNat_snoc, h5]; ring
        · right
          exact ⟨c, List.mem_append_left _ hcq, h1, h2⟩

theorem init_take {k d : Nat} (hk : k < 32) :
    ((List.replicate 32 0).set (31 - k) d).take (32 - k) = List.replicate (31 - k) 0 ++ [d] := by
  have h := set_take (X := List.replicate 32 0) (T := []) (k := k) (v := d) (by simp) hk
  have e : 32 - (k + 1) = 31 - k := by omega
  rw [e, List.append_nil, List.take_replicate, List.take_replicate] at h
  rw [List.take_set, List.take_replicate, h, Nat.min_eq_left (by omega)]

theorem hexBody_spec {r : Bytes} (hr : r.length ≤ 64) :
    (∃ n f, Denotes r n ∧ FeltOf f n ∧ hexBody (48 :: 120 :: r) r.length = .ok f) ∨
    (∃ n, Denotes r n ∧ Kind.felt.prime ≤ n ∧ hexBody (48 :: 120 :: r) r.length = .error .overflow) ∨
    (∃ c ∈ r, (∀ d, ¬ HexDigit c d) ∧ hexBody (48 :: 120 :: r) r.length = .error (.invalidNibble c)) := by
  -- the last step, once the buffer is known
  have fin : ∀ (buf : Bytes) (n : Nat), buf.length = 32 → (∀ b ∈ buf, b < 256) → beNat buf = n → Denotes r n →
      (hexBody (48 :: 120 :: r) r.length = match feltFromBytes buf with
        | some f => .ok f
        | none => .error .overflow) →
      (∃ n f, Denotes r n ∧ FeltOf f n ∧ hexBody (48 :: 120 :: r) r.length = .ok f) ∨
      (∃ n, Denotes r n ∧ Kind.felt.prime ≤ n ∧ hexBody (48 :: 120 :: r) r.length = .error .overflow) ∨
      (∃ c ∈ r, (∀ d, ¬ HexDigit c d) ∧ hexBody (48 :: 120 :: r) r.length = .error (.invalidNibble c)) := by
    intro buf n h1 h2 h3 h4 h5
    rw [feltFromBytes_spec h1 h2] at h5
    by_cases hn : beNat buf < Kind.felt.prime
    · rw [if_pos hn] at h5
      exact .inl ⟨n, buf, h4, ⟨h1, h2, h3, h3 ▸ hn⟩, h5⟩
    · rw [if_neg hn] at h5
      exact .inr (.inl ⟨n, h4, by omega, h5⟩)
  by_cases hodd : r.length % 2 = 1
  · -- odd number of digits
    obtain ⟨c, q, rfl⟩ : ∃ c q, r = c :: q := by
      cases r with
      | nil => simp at hodd
      | cons c q => exact ⟨c, q, rfl⟩
    simp only [List.length_cons] at hodd hr
    have hk : (q.length + 1) / 2 < 32 := by omega
    have hget : (48 :: 120 :: c :: q).getD 2 0 = c := rfl
    cases ec : parseHexDigit c with
    | error e =>
      obtain ⟨rfl, h2⟩ := parse_error ec
      refine .inr (.inr ⟨c, by simp, h2, ?_⟩)
      rw [hexBody, hexInit, List.length_cons, if_pos hodd, hget, ec]
    | ok d =>
      have hi : hexInit (48 :: 120 :: c :: q) (c :: q).length =
          .ok ((List.replicate 32 0).set (31 - (q.length + 1) / 2) d) := by
        rw [hexInit, List.length_cons, if_pos hodd, hget, ec]
      have hl := hexLoop_spec [48, 120, c] ((q.length + 1) / 2) q [] ((List.replicate 32 0).set (31 - (q.length + 1) / 2) d) [] 0
        (by omega) rfl (by simp) (by omega)
      have htake : ((List.replicate 32 0).set (31 - (q.length + 1) / 2) d).take (32 - 0) =
          (List.replicate 32 0).set (31 - (q.length + 1) / 2) d := List.take_of_length_le (by simp)
      rw [htake, List.append_nil, List.append_nil] at hl
      have hform : [48, 120, c] ++ q = 48 :: 120 :: c :: q := rfl
      rw [hform] at hl
      have hbody : hexBody (48 :: 120 :: c :: q) (c :: q).length = match hexLoop (48 :: 120 :: c :: q) ((q.length + 1) / 2) 0
          ((List.replicate 32 0).set (31 - (q.length + 1) / 2) d) with
          | .error e => .error e
          | .ok buf => match feltFromBytes buf with
            | some f => .ok f
            | none => .error .overflow := by
        rw [hexBody, hi]; rfl
      rcases hl with ⟨T', n, h1, h2, h3, h4, h5⟩ | ⟨x, hx, h1, h2⟩
      · rw [Nat.sub_zero, init_take hk, List.append_nil] at h1
        rw [h1] at hbody
        have dd := parse_iff.1 ec
        refine fin _ (d * 16 ^ q.length + n) ?_ ?_ ?_ ?_ hbody
        · simp [h2]; omega
        · intro b hb
          simp only [List.mem_append, List.mem_replicate, List.mem_singleton] at hb
          have := dd.lt
          rcases hb with (⟨_, rfl⟩ | rfl) | hb
          · decide
          · omega
          · exact h3 b hb
        · rw [beNat_append, beNat_snoc, beNat_zeros, h5, h2]
          have : 256 ^ ((q.length + 1) / 2) = 16 ^ q.length := by
            have e : q.length = 2 * ((q.length + 1) / 2) := by omega
            conv_rhs => rw [e, pow_mul]
            rfl
          rw [this]; ring
        · refine Denotes.append_iff (s := [c]) (t := q) |>.2 ⟨d, n, ?_, h4, rfl⟩
          have := Denotes.snoc Denotes.nil dd
          simpa using this
      · rw [h1] at hbody
        exact .inr (.inr ⟨x, by simp [hx], h2, hbody⟩)
  · -- even number of digits
    have hi : hexInit (48 :: 120 :: r) r.length = .ok (List.replicate 32 0) := by
      rw [hexInit, if_neg hodd]
    have hl := hexLoop_spec [48, 120] (r.length / 2) r [] (List.replicate 32 0) [] 0 (by omega) rfl (by simp) (by omega)
    have htake : (List.replicate 32 0).take (32 - 0) = List.replicate 32 0 := List.take_of_length_le (by simp)
    rw [htake, List.append_nil, List.append_nil] at hl
    have hform : [48, 120] ++ r = 48 :: 120 :: r := rfl
    rw [hform] at hl
    have hbody : hexBody (48 :: 120 :: r) r.length = match hexLoop (48 :: 120 :: r) (r.length / 2) 0 (List.replicate 32 0) with
        | .error e => .error e
        | .ok buf => match feltFromBytes buf with
          | some f => .ok f
          | none => .error .overflow := by
      rw [hexBody, hi]; rfl
    rcases hl with ⟨T', n, h1, h2, h3, h4, h5⟩ | ⟨x, hx, h1, h2⟩
    · rw [Nat.sub_zero, List.take_replicate, List.append_nil] at h1
      rw [h1] at hbody
      refine fin _ n ?_ ?_ ?_ h4 hbody
      · simp [h2]; omega
      · intro b hb
        simp only [List.mem_append, List.mem_replicate] at hb
        rcases hb with ⟨_, rfl⟩ | hb
        · decide
        · exact h3 b hb
      · rw [beNat_append, beNat_zeros, h5]; simp
    · rw [h1] at hbody
      exact .inr (.inr ⟨x, hx, h2, hbody⟩)

/-! ## Writing hex -/

/-- The digits of bytes. -/
def pairs (l : Bytes) : Bytes := l.flatMap fun b => [lut (b / 16), lut (b % 16)]

theorem hexWrite_spec (start : Nat) (bs : Bytes) (i : Nat) (A B C : Bytes) (hA : A.length = start + i * 2)
    (hB : B.length = 2 * bs.length) : hexWrite start bs i (A ++ B ++ C) = A ++ pairs bs ++ C := by
  induction bs generalizing i A B with
  | nil =>
    have : B = [] := List.length_eq_zero_iff.1 (by simpa using hB)
    subst this; simp [hexWrite, pairs]
  | cons b bs ih =>
    obtain ⟨x, y, B', rfl⟩ : ∃ x y B', B = x :: y :: B' := by
      match B, hB with
      | x :: y :: B', _ => exact ⟨x, y, B', rfl⟩
      | [_], h => simp at h; omega
      | [], h => simp at h
    rw [hexWrite]
    have e : ((A ++ x :: y :: B' ++ C).set (start + i * 2) (lut (b / 16))).set (start + i * 2 + 1) (lut (b % 16)) =
        (A ++ [lut (b / 16), lut (b % 16)]) ++ B' ++ C := by
      rw [← hA, List.append_assoc, List.set_append_right _ _ (Nat.le_refl _), Nat.sub_self,
        List.set_append_right _ _ (by omega), Nat.add_sub_cancel_left]
      simp
    simp only [e]
    rw [ih (i + 1) _ B' (by simp [hA]; omega) (by simp at hB; omega)]
    simp [pairs]

theorem lut_digit {n : Nat} (h : n < 16) : HexDigit (lut n) n := by
  unfold lut HexDigit; split <;> omega

theorem pairs_denotes {l : Bytes} (h : ∀ b ∈ l, b < 256) : Denotes (pairs l) (beNat l) := by
  induction l using List.reverseRecOn with
  | nil => exact .nil
  | append_singleton l b ih =>
    have hb := h b (by simp)
    have h1 := ih fun x hx => h x (List.mem_append_left _ hx)
    have e : pairs (l ++ [b]) = pairs l ++ [lut (b / 16)] ++ [lut (b % 16)] := by simp [pairs]
    rw [e, beNat_snoc]
    have : 256 * beNat l + b = 16 * (16 * beNat l + b / 16) + b % 16 := by omega
    rw [this]
    exact .snoc (.snoc h1 (lut_digit (by omega))) (lut_digit (by omega))

theorem pairs_length (l : Bytes) : (pairs l).length = 2 * l.length := by
  induction l with
  | nil => rfl
  | cons b l ih => simp [pairs] at *; omega

theorem getD_skip {f : Bytes} {b : Nat} {l : Bytes} (h : f.dropWhile (· == 0) = b :: l) :
    f.getD (f.length - (b :: l).length) 0 = b := by
  have h1 := List.takeWhile_append_dropWhile (p := (· == 0)) (l := f)
  rw [h] at h1
  have h2 : f.length = (f.takeWhile (· == 0)).length + (b :: l).length := by
    conv_lhs => rw [← h1, List.length_append]
  rw [h2, Nat.add_sub_cancel]
  conv_lhs => arg 1; rw [← h1]
  rw [List.getD_append_right _ _ _ _ (Nat.le_refl _), Nat.sub_self]; rfl

/-- The text of a non-zero element: the digits of its bytes without leading zeros. -/
theorem hexText_spec {f buf : Bytes} {b : Nat} {l : Bytes} (hf : ∀ x ∈ f, x < 256) (h : f.dropWhile (· == 0) = b :: l)
    (hbuf : (if b < 0x10 then 1 else 2) + (b :: l).length * 2 ≤ buf.length) :
    hexText f buf = 48 :: 120 :: (pairs (b :: l)).drop (if b < 0x10 then 1 else 0) := by
  have hb : b < 256 := by
    refine hf b (List.dropWhile_subset (p := (· == 0)) ?_)
    rw [h]; simp
  unfold hexText
  simp only [h, getD_skip h]
  by_cases hs : b < 0x10
  · simp only [if_pos hs] at hbuf ⊢
    obtain ⟨B, C, e, hB⟩ : ∃ B C, buf.set 0 48 = [48] ++ B ++ C ∧ B.length = 2 * (b :: l).length := by
      cases buf with
      | nil => simp at hbuf
      | cons x t =>
        refine ⟨t.take (2 * (b :: l).length), t.drop (2 * (b :: l).length), by simp, ?_⟩
        rw [List.length_take]; simp at hbuf ⊢; omega
    rw [e, hexWrite_spec 1 (b :: l) 0 [48] B C rfl hB]
    have e2 : pairs (b :: l) = lut (b / 16) :: lut (b % 16) :: pairs l := rfl
    rw [e2]
    have := pairs_length l
    simp only [List.cons_append, List.nil_append, List.set_cons_succ, List.set_cons_zero, List.drop_succ_cons, List.drop_zero]
    have e3 : 1 + (b :: l).length * 2 = (pairs l).length + 3 := by simp; omega
    rw [e3]
    simp
  · simp only [if_neg hs] at hbuf ⊢
    obtain ⟨x, B, C, e, hB⟩ : ∃ x B C, buf.set 0 48 = [48, x] ++ B ++ C ∧ B.length = 2 * (b :: l).length := by
      match buf, hbuf with
      | y :: x :: t, hbuf =>
        refine ⟨x, t.take (2 * (b :: l).length), t.drop (2 * (b :: l).length), by simp, ?_⟩
        rw [List.length_take]; simp at hbuf ⊢; omega
      | [_], hbuf => simp at hbuf; omega
      | [], hbuf => simp at hbuf
    rw [e, hexWrite_spec 2 (b :: l) 0 [48, x] B C rfl hB]
    have := pairs_length (b :: l)
    simp only [List.cons_append, List.nil_append, List.set_cons_succ, List.set_cons_zero, List.drop_zero]
    have e3 : 2 + (b :: l).length * 2 = (pairs (b :: l)).length + 2 := by omega
    rw [e3]
    simp

theorem any_dropWhile {f : Bytes} : (!f.any (· != 0)) = true ↔ f.dropWhile (· == 0) = [] := by
  rw [List.dropWhile_eq_nil_iff]
  simp

theorem beNat_dropWhile (f : Bytes) : beNat (f.dropWhile (· == 0)) = beNat f := by
  induction f with
  | nil => rfl
  | cons b f ih =>
    rw [List.dropWhile_cons]
    split
    · next h =>
      have : b = 0 := by simpa using h
      subst this
      rw [ih]; rfl
    · rfl

theorem dropWhile_head {f : Bytes} {b : Nat} {l : Bytes} (h : f.dropWhile (· == 0) = b :: l) : b ≠ 0 := by
  intro h0
  have := List.head_dropWhile_not (p := (· == 0)) (l := f) (by rw [h]; simp)
  simp only [h, List.head_cons] at this
  simp [h0] at this

theorem pairs_drop {b : Nat} {l : Bytes} (h : ∀ x ∈ b :: l, x < 256) :
    Denotes ((pairs (b :: l)).drop (if b < 0x10 then 1 else 0)) (beNat (b :: l)) := by
  have h1 := pairs_denotes h
  split
  · next hb =>
    have e2 : pairs (b :: l) = [lut (b / 16)] ++ (lut (b % 16) :: pairs l) := rfl
    rw [e2] at h1 ⊢
    obtain ⟨x, y, h2, h3, h4⟩ := Denotes.append_iff.1 h1
    have h5 : b / 16 = 0 := by omega
    rw [h5] at h2
    obtain ⟨k, d, h6, h7, rfl⟩ := Denotes.snoc_iff (s := []).1 h2
    have h8 := h7.unique (lut_digit (n := 0) (by decide))
    rw [Denotes.nil_iff] at h6
    subst h6 h8
    simp only [Nat.mul_zero, Nat.add_zero, Nat.zero_mul, Nat.zero_add] at h4
    rw [h4]; exact h3
  · exact h1

end Verif.Crypto
