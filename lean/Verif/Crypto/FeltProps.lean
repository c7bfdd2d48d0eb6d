import Verif.Crypto.FieldProps
import Verif.Crypto.FeltLemmas
/-! # C28: the codecs of field elements -/
namespace Verif.Crypto

theorem FeltOf.unique {f g : Bytes} {n : Nat} (hf : FeltOf f n) (hg : FeltOf g n) : f = g :=
  beNat_inj hf.bytes hg.bytes (hf.length.trans hg.length.symm) (hf.value.trans hg.value.symm)

/-- `from_be_bytes` accepts exactly the 32 bytes of a number below the prime, and keeps them. -/
theorem C28_from_bytes {b f : Bytes} (h : b.length = 32) (hb : ∀ x ∈ b, x < 256) :
    feltFromBytes b = some f ↔ f = b ∧ ∃ n, FeltOf b n := by
  rw [feltFromBytes_spec h hb]
  constructor
  · split
    · next hn => intro e; cases e; exact ⟨rfl, _, h, hb, rfl, hn⟩
    · simp
  · rintro ⟨rfl, n, hn⟩
    rw [if_pos]
    show List.foldl _ _ _ < _
    rw [hn.value]; exact hn.below

/-- `from_be_slice` accepts exactly the at most 32 bytes of a number below the prime. -/
theorem C28_from_slice {b f : Bytes} (hb : ∀ x ∈ b, x < 256) :
    feltFromSlice b = some f ↔ b.length ≤ 32 ∧ FeltOf f (b.foldl (fun acc b => 256 * acc + b) 0) := by
  unfold feltFromSlice
  by_cases hl : b.length > 32
  · rw [if_pos hl]; simp; omega
  rw [if_neg hl]
  have h1 : (List.replicate (32 - b.length) 0 ++ b).length = 32 := by simp; omega
  have h2 : ∀ x ∈ List.replicate (32 - b.length) 0 ++ b, x < 256 := by
    intro x hx
    rcases List.mem_append.1 hx with hx | hx
    · rw [(List.mem_replicate.1 hx).2]; decide
    · exact hb x hx
  have h3 : beNat (List.replicate (32 - b.length) 0 ++ b) = beNat b := by rw [beNat_append, beNat_zeros]; simp
  rw [C28_from_bytes h1 h2]
  constructor
  · rintro ⟨rfl, n, hn⟩
    refine ⟨by omega, ?_⟩
    have : n = beNat b := hn.value.symm.trans h3
    subst this; exact hn
  · rintro ⟨_, hf⟩
    have h4 : FeltOf (List.replicate (32 - b.length) 0 ++ b) (beNat b) := ⟨h1, h2, h3, hf.below⟩
    exact ⟨hf.unique h4, _, h4⟩

/-- `from_hex_str` accepts exactly `0x` followed by at most 64 hex digits of a number below the prime, and gives that number. -/
theorem C28_hex_accepts {s f : Bytes} :
    fromHexStr s = .ok f ↔ ∃ digits n, s = 48 :: 120 :: digits ∧ digits.length ≤ 64 ∧ Denotes digits n ∧ FeltOf f n := by
  constructor
  · intro h
    unfold fromHexStr at h
    split at h
    · next rest =>
      split at h
      · cases h
      · next hl =>
        rcases hexBody_spec (r := rest) (by omega) with ⟨n, g, h1, h2, h3⟩ | ⟨n, h1, h2, h3⟩ | ⟨c, h1, h2, h3⟩
        · rw [h3] at h; cases h
          exact ⟨rest, n, rfl, by omega, h1, h2⟩
        · rw [h3] at h; cases h
        · rw [h3] at h; cases h
    · cases h
  · rintro ⟨r, n, rfl, hl, hd, hf⟩
    rw [fromHexStr, if_neg (by omega)]
    rcases hexBody_spec hl with ⟨k, g, h1, h2, h3⟩ | ⟨k, h1, h2, h3⟩ | ⟨c, h1, h2, h3⟩
    · rw [h3, h2.unique (h1.unique hd ▸ hf)]
    · have := h1.unique hd
      have := hf.below
      omega
    · obtain ⟨d, hc⟩ := hd.digits c h1
      exact absurd hc (h2 d)

/-- What is not accepted is answered with the error that names the reason: the prefix, the length, a character that is not a
digit, or a number that is too large. -/
theorem C28_hex_rejects {s : Bytes} {e : HexError} (h : fromHexStr s = .error e) :
    (e = .missingPrefix ∧ ∀ digits, s ≠ 48 :: 120 :: digits) ∨
    ∃ digits, s = 48 :: 120 :: digits ∧
      ((e = .invalidLength digits.length ∧ 64 < digits.length) ∨
       (∃ c ∈ digits, e = .invalidNibble c ∧ ∀ d, ¬ HexDigit c d) ∨
       (e = .overflow ∧ ∃ n, Denotes digits n ∧ Kind.felt.prime ≤ n)) := by
  unfold fromHexStr at h
  split at h
  · next rest =>
    right
    refine ⟨rest, rfl, ?_⟩
    split at h
    · next hl => cases h; exact .inl ⟨rfl, hl⟩
    · next hl =>
      rcases hexBody_spec (r := rest) (by omega) with ⟨n, g, h1, h2, h3⟩ | ⟨n, h1, h2, h3⟩ | ⟨c, h1, h2, h3⟩
      · rw [h3] at h; cases h
      · rw [h3] at h; cases h; exact .inr (.inr ⟨rfl, n, h1, h2⟩)
      · rw [h3] at h; cases h; exact .inr (.inl ⟨c, h1, rfl, h2⟩)
  · next hne =>
    left
    cases h
    exact ⟨rfl, fun d hd => hne d hd⟩

/-- The text of an element: `0x` and the lower-case digits of its number without leading zeros, `0` for zero. -/
structure HexTextOf (s : Bytes) (n : Nat) : Prop where
  ex : ∃ digits, s = 48 :: 120 :: digits ∧ Denotes digits n ∧ digits.length ≤ 64 ∧ (∀ c ∈ digits, ¬ (65 ≤ c ∧ c ≤ 70)) ∧
    (n = 0 → digits = [48]) ∧ (n ≠ 0 → digits.head? ≠ some 48)

theorem lut_not_upper {n : Nat} (h : n < 16) : ¬ (65 ≤ lut n ∧ lut n ≤ 70) := by unfold lut; split <;> omega

theorem pairs_not_upper {l : Bytes} (h : ∀ b ∈ l, b < 256) : ∀ c ∈ pairs l, ¬ (65 ≤ c ∧ c ≤ 70) := by
  intro c hc
  obtain ⟨b, hb, hc⟩ := List.mem_flatMap.1 hc
  have := h b hb
  simp only [List.mem_cons, List.not_mem_nil, or_false] at hc
  rcases hc with rfl | rfl
  · exact lut_not_upper (by omega)
  · exact lut_not_upper (by omega)

theorem zero_text {f : Bytes} {n : Nat} (hf : FeltOf f n) (h : f.dropWhile (· == 0) = []) : HexTextOf [48, 120, 48] n := by
  have hn : n = 0 := by
    have := beNat_dropWhile f
    rw [h] at this
    exact hf.value.symm.trans this.symm
  subst hn
  exact ⟨[48], rfl, .snoc .nil (.inl ⟨by decide, by decide, rfl⟩), by simp, by simp, fun _ => rfl, by simp⟩

theorem nonzero_text {f buf : Bytes} {n b : Nat} {l : Bytes} (hf : FeltOf f n) (h : f.dropWhile (· == 0) = b :: l)
    (hbuf : (if b < 0x10 then 1 else 2) + (b :: l).length * 2 ≤ buf.length) : HexTextOf (hexText f buf) n := by
  have hlt : ∀ x ∈ b :: l, x < 256 := fun x hx => hf.bytes x (List.dropWhile_subset (p := (· == 0)) (h ▸ hx))
  have hb0 := dropWhile_head h
  have hn : beNat (b :: l) = n := by rw [← h, beNat_dropWhile]; exact hf.value
  have hnz : n ≠ 0 := by
    have e : beNat (b :: l) = b * 256 ^ l.length + beNat l := by
      have := beNat_append [b] l
      simpa [beNat] using this
    have : 0 < 256 ^ l.length := by positivity
    have : 1 * 1 ≤ b * 256 ^ l.length := Nat.mul_le_mul (by omega) this
    omega
  have hlen : (b :: l).length ≤ 32 := by
    rw [← h, ← hf.length]; exact (List.dropWhile_suffix _).length_le
  have hpl := pairs_length (b :: l)
  refine ⟨_, hexText_spec hf.bytes h hbuf, hn ▸ pairs_drop hlt, ?_, ?_, fun h0 => absurd h0 hnz, fun _ => ?_⟩
  · rw [List.length_drop]; omega
  · intro c hc
    exact pairs_not_upper hlt c (List.mem_of_mem_drop hc)
  · have hb := hlt b (by simp)
    have e2 : pairs (b :: l) = lut (b / 16) :: lut (b % 16) :: pairs l := rfl
    rw [e2]
    split
    · simp only [List.drop_succ_cons, List.drop_zero, List.head?_cons, ne_eq, Option.some.injEq]
      unfold lut; split <;> omega
    · simp only [List.drop_zero, List.head?_cons, ne_eq, Option.some.injEq]
      unfold lut; split <;> omega

/-- `to_hex_str` writes the text of the element. -/
theorem C28_to_hex {f : Bytes} {n : Nat} (hf : FeltOf f n) : HexTextOf (toHexStr f) n := by
  unfold toHexStr
  split
  · next h => exact zero_text hf (any_dropWhile.1 h)
  · next h =>
    cases e : f.dropWhile (· == 0) with
    | nil => exact absurd (any_dropWhile.2 e) h
    | cons b l =>
      have hg := getD_skip e
      simp only [hg]
      exact nonzero_text hf e (by simp)

/-- `as_hex_str`, with which elements are serialized, writes the same text for every buffer that it accepts. -/
theorem C28_as_hex {f buf : Bytes} {n : Nat} (hf : FeltOf f n) (hbuf : 66 ≤ buf.length) : HexTextOf (asHexStr f buf) n := by
  unfold asHexStr
  split
  · next h => exact zero_text hf (any_dropWhile.1 h)
  · next h =>
    cases e : f.dropWhile (· == 0) with
    | nil => exact absurd (any_dropWhile.2 e) h
    | cons b l =>
      have hlen : (b :: l).length ≤ 32 := by
        rw [← e, ← hf.length]; exact (List.dropWhile_suffix _).length_le
      exact nonzero_text hf e (by split <;> omega)

/-- Writing an element as hex and reading it gives the same element. -/
theorem C28_hex_round_trip {f buf : Bytes} {n : Nat} (hf : FeltOf f n) (hbuf : 66 ≤ buf.length) :
    fromHexStr (toHexStr f) = .ok f ∧ fromHexStr (asHexStr f buf) = .ok f := by
  constructor
  · obtain ⟨d, h1, h2, h3, _⟩ := (C28_to_hex hf).ex
    exact C28_hex_accepts.2 ⟨d, n, h1, h3, h2, hf⟩
  · obtain ⟨d, h1, h2, h3, _⟩ := (C28_as_hex hf hbuf).ex
    exact C28_hex_accepts.2 ⟨d, n, h1, h3, h2, hf⟩

/-- A concrete case: the bytes of `p - 1`, and of a number with an odd number of digits. -/
example : (∃ n, FeltOf ([8, 0, 0, 0, 0, 0, 0, 17] ++ List.replicate 24 0) n) ∧
    toHexStr (List.replicate 30 0 ++ [0xa, 0xbc]) = [48, 120, 97, 98, 99] ∧
    fromHexStr [48, 120, 65, 98, 99] = .ok (List.replicate 30 0 ++ [0xa, 0xbc]) ∧
    feltFromBytes ([8, 0, 0, 0, 0, 0, 0, 17] ++ List.replicate 23 0 ++ [1]) = none := by
  refine ⟨⟨_, rfl, by decide, rfl, by decide +kernel⟩, by decide +kernel, by decide +kernel, by decide +kernel⟩

/-- `From<u64>` and `From<u128>` do not panic and give the number. -/
theorem C28_from_int {u : Nat} :
    (u < 2 ^ 64 → ∃ f, feltFromU64 u = some f ∧ FeltOf f u) ∧ (u < 2 ^ 128 → ∃ f, feltFromU128 u = some f ∧ FeltOf f u) := by
  have key : ∀ k, k ≤ 16 → u < 256 ^ k → ∃ f, feltFromSlice (natBytes k u) = some f ∧ FeltOf f u := by
    intro k hk hu
    obtain ⟨h1, h2, h3⟩ := natBytes_spec k u
    rw [Nat.mod_eq_of_lt hu] at h3
    have hp : u < Kind.felt.prime := by
      have := Nat.pow_le_pow_right (n := 256) (by decide) hk
      have h4 : 256 ^ 16 < Kind.felt.prime := by decide +kernel
      omega
    have hf : FeltOf (List.replicate (32 - k) 0 ++ natBytes k u) u := by
      refine ⟨by simp [h1]; omega, ?_, ?_, hp⟩
      · intro x hx
        rcases List.mem_append.1 hx with hx | hx
        · rw [(List.mem_replicate.1 hx).2]; decide
        · exact h2 x hx
      · show beNat _ = _
        rw [beNat_append, beNat_zeros, h3]; simp
    refine ⟨_, (C28_from_slice h2).2 ⟨by omega, ?_⟩, hf⟩
    show FeltOf _ (beNat _)
    rw [h3]; exact hf
  exact ⟨key 8 (by decide), key 16 (by decide)⟩

theorem feltToInt_spec {f : Bytes} {n : Nat} (hf : FeltOf f n) {z : Nat} (hz : z ≤ 32) :
    feltToInt z f = if n < 256 ^ (32 - z) then some n else none := by
  have hv : beNat f = n := hf.value
  have hs := List.take_append_drop z f
  have e : beNat f = beNat (f.take z) * 256 ^ (32 - z) + beNat (f.drop z) := by
    conv_lhs => rw [← hs, beNat_append, List.length_drop, hf.length]
  have hd : beNat (f.drop z) < 256 ^ (32 - z) := by
    have := beNat_lt (l := f.drop z) fun x hx => hf.bytes x (List.mem_of_mem_drop hx)
    rwa [List.length_drop, hf.length] at this
  have ht : z ≤ (f.takeWhile (· == 0)).length ↔ beNat (f.take z) = 0 := by
    constructor
    · intro h
      have : f.take z = List.replicate z 0 := by
        have h1 : f.take z = (f.takeWhile (· == 0)).take z := by
          conv_lhs => rw [← List.takeWhile_append_dropWhile (p := (· == 0)) (l := f)]
          rw [List.take_append_of_le_length h]
        have hl : (f.take z).length = z := by rw [List.length_take, hf.length]; omega
        refine List.eq_replicate_iff.2 ⟨hl, fun x hx => ?_⟩
        rw [h1] at hx
        have := List.mem_takeWhile_imp (List.mem_of_mem_take hx)
        simpa using this
      rw [this, beNat_zeros]
    · intro h
      by_contra hc
      have hc : (f.takeWhile (· == 0)).length < z := by omega
      cases ed : f.dropWhile (· == 0) with
      | nil =>
        have := List.takeWhile_append_dropWhile (p := (· == 0)) (l := f)
        rw [ed, List.append_nil] at this
        rw [this, hf.length] at hc
        omega
      | cons b l =>
        have hb := dropWhile_head ed
        have h1 := List.takeWhile_append_dropWhile (p := (· == 0)) (l := f)
        rw [ed] at h1
        obtain ⟨k, hk⟩ : ∃ k, z = (f.takeWhile (· == 0)).length + (k + 1) := ⟨z - (f.takeWhile (· == 0)).length - 1, by omega⟩
        have h2 : f.take z = f.takeWhile (· == 0) ++ (b :: l.take k) := by
          conv_lhs => rw [← h1, hk, List.take_length_add_append, List.take_succ_cons]
        rw [h2, beNat_append] at h
        have h3 : beNat (b :: l.take k) = b * 256 ^ (l.take k).length + beNat (l.take k) := by
          have := beNat_append [b] (l.take k)
          simpa [beNat] using this
        have : 0 < 256 ^ (l.take k).length := by positivity
        have : 1 * 1 ≤ b * 256 ^ (l.take k).length := Nat.mul_le_mul (by omega) this
        omega
  unfold feltToInt
  by_cases h : (f.takeWhile (· == 0)).length < z
  · rw [if_pos h, if_neg]
    have : beNat (f.take z) ≠ 0 := fun h0 => by have := ht.2 h0; omega
    have : 1 * 256 ^ (32 - z) ≤ beNat (f.take z) * 256 ^ (32 - z) := Nat.mul_le_mul_right _ (by omega)
    omega
  · rw [if_neg h]
    have h0 := ht.1 (by omega)
    rw [h0, Nat.zero_mul, Nat.zero_add] at e
    rw [if_pos (by omega)]
    congr 1; omega

/-- `TryInto<u64>` gives the number if it fits and an error otherwise, and so does `TryInto<u128>`. -/
theorem C28_to_int {f : Bytes} {n : Nat} (hf : FeltOf f n) :
    feltToInt 24 f = (if n < 2 ^ 64 then some n else none) ∧ feltToInt 16 f = (if n < 2 ^ 128 then some n else none) := by
  have e1 : 256 ^ (32 - 24) = 2 ^ 64 := by decide
  have e2 : 256 ^ (32 - 16) = 2 ^ 128 := by decide
  exact ⟨by rw [feltToInt_spec hf (by decide), e1], by rw [feltToInt_spec hf (by decide), e2]⟩

/-- `has_more_than_251_bits` says whether the number is at least `2^251`. -/
theorem C28_251_bits {f : Bytes} {n : Nat} (hf : FeltOf f n) : hasMoreThan251Bits f = true ↔ 2 ^ 251 ≤ n := by
  cases f with
  | nil => simpa using hf.length
  | cons b l =>
    have hl : l.length = 31 := by simpa using hf.length
    have h3 : beNat (b :: l) = b * 256 ^ l.length + beNat l := by
      have := beNat_append [b] l
      simpa [beNat] using this
    have h4 := beNat_lt (l := l) fun x hx => hf.bytes x (by simp [hx])
    have h5 : beNat (b :: l) = n := hf.value
    rw [hl] at h3 h4
    have e : 2 ^ 251 = 8 * 256 ^ 31 := by decide
    rw [hasMoreThan251Bits, List.headD_cons, e, ← h5, h3]
    simp only [gt_iff_lt, decide_eq_true_eq]
    constructor
    · intro h
      exact Nat.le_trans (Nat.mul_le_mul_right _ (by omega)) (Nat.le_add_right _ _)
    · intro h
      by_contra hc
      have : b * 256 ^ 31 ≤ 7 * 256 ^ 31 := Nat.mul_le_mul_right _ (by omega)
      omega

/-! ## The arithmetic form -/

theorem montToBytes_spec {k : Kind} {x : Limbs} (h : x.Ok) : (montToBytes k.modulus x).length = 32 ∧
    (∀ b ∈ montToBytes k.modulus x, b < 256) ∧ beNat (montToBytes k.modulus x) = value k x := by
  have hc := (toNative_spec (modulus_good k) h).1.ok
  have s3 := natBytes_spec 8 (toNative k.modulus x).l3
  have s2 := natBytes_spec 8 (toNative k.modulus x).l2
  have s1 := natBytes_spec 8 (toNative k.modulus x).l1
  have s0 := natBytes_spec 8 (toNative k.modulus x).l0
  have e : 256 ^ 8 = W := by decide
  rw [e] at s0 s1 s2 s3
  refine ⟨by simp [montToBytes, s0.1, s1.1, s2.1, s3.1], ?_, ?_⟩
  · intro b hb
    simp only [montToBytes, List.mem_append] at hb
    rcases hb with ((hb | hb) | hb) | hb
    · exact s3.2.1 b hb
    · exact s2.2.1 b hb
    · exact s1.2.1 b hb
    · exact s0.2.1 b hb
  · unfold montToBytes value Limbs.nat
    simp only
    rw [beNat_append, beNat_append, beNat_append, s0.1, s1.1, s2.1, s0.2.2, s1.2.2, s2.2.2, s3.2.2, e,
      Nat.mod_eq_of_lt hc.l0, Nat.mod_eq_of_lt hc.l1, Nat.mod_eq_of_lt hc.l2, Nat.mod_eq_of_lt hc.l3]
    ring

/-- Converting an element of either arithmetic type to a `Felt` does not panic and gives its number. -/
theorem C28_of_mont {k : Kind} {x : Limbs} (h : Elem k x) : ∃ f, feltOfMont k.modulus x = some f ∧ FeltOf f (value k x) := by
  obtain ⟨h1, h2, h3⟩ := montToBytes_spec (k := k) h.u64
  have hlt : value k x < Kind.felt.prime := by
    have := value_lt (k := k) h.u64
    have h4 : k.prime ≤ Kind.felt.prime := by cases k <;> decide +kernel
    omega
  have hf : FeltOf (montToBytes k.modulus x) (value k x) := ⟨h1, h2, h3, hlt⟩
  exact ⟨_, (C28_from_bytes h1 h2).2 ⟨rfl, _, hf⟩, hf⟩

/-- Converting 32 bytes to an arithmetic type gives their number modulo the prime. -/
theorem C28_to_mont {k : Kind} {b : Bytes} (h : b.length = 32) (hb : ∀ x ∈ b, x < 256) :
    Elem k (montFromBytes k.modulus b) ∧
      value k (montFromBytes k.modulus b) = b.foldl (fun acc b => 256 * acc + b) 0 % k.prime := by
  obtain ⟨h1, h2⟩ := limbsOfBytes_spec h hb
  have := C29_from_bytes (k := k) h1
  rw [h2] at this
  exact this

theorem C28_mont_felt {f : Bytes} {n : Nat} (hf : FeltOf f n) :
    Elem .felt (montFromBytes fieldMod f) ∧ value .felt (montFromBytes fieldMod f) = n := by
  obtain ⟨h1, h2⟩ := C28_to_mont (k := .felt) hf.length hf.bytes
  refine ⟨h1, ?_⟩
  rw [hf.value, Nat.mod_eq_of_lt hf.below] at h2
  exact h2

/-- A `Felt` survives the way through the arithmetic form. -/
theorem C28_mont_round_trip {f : Bytes} {n : Nat} (hf : FeltOf f n) : feltOfMont fieldMod (montFromBytes fieldMod f) = some f := by
  obtain ⟨h1, h2⟩ := C28_mont_felt hf
  obtain ⟨g, h3, h4⟩ := C28_of_mont h1
  rw [h2] at h4
  rw [h4.unique hf] at h3
  exact h3

/-- `+` and `-` of `Felt` do not panic and compute modulo the prime. -/
theorem C28_add_sub {f g : Bytes} {a b : Nat} (hf : FeltOf f a) (hg : FeltOf g b) :
    (∃ r, feltAdd f g = some r ∧ FeltOf r ((a + b) % Kind.felt.prime)) ∧
    (∃ r, feltSub f g = some r ∧ FeltOf r ((a + (Kind.felt.prime - b)) % Kind.felt.prime)) := by
  obtain ⟨h1, h2⟩ := C28_mont_felt hf
  obtain ⟨h3, h4⟩ := C28_mont_felt hg
  obtain ⟨h5, h6⟩ := C29_add h1 h3
  obtain ⟨h7, h8⟩ := C29_sub h1 h3
  obtain ⟨r, h9, h10⟩ := C28_of_mont h5
  obtain ⟨r', h11, h12⟩ := C28_of_mont h7
  rw [h6, h2, h4] at h10
  rw [h8, h2, h4] at h12
  exact ⟨⟨r, h9, h10⟩, ⟨r', h11, h12⟩⟩

/-! ## Bits -/

theorem bitsValue_snoc (l : List Bool) (b : Bool) : bitsValue (l ++ [b]) = 2 * bitsValue l + b.toNat := by simp [bitsValue]

theorem bitsValue_append (l r : List Bool) : bitsValue (l ++ r) = bitsValue l * 2 ^ r.length + bitsValue r := by
  induction r using List.reverseRecOn with
  | nil => simp [bitsValue]
  | append_singleton r b ih =>
    rw [← List.append_assoc, bitsValue_snoc, ih, bitsValue_snoc, List.length_append, List.length_singleton, pow_succ]
    ring

theorem bitsValue_lt (l : List Bool) : bitsValue l < 2 ^ l.length := by
  induction l using List.reverseRecOn with
  | nil => simp [bitsValue]
  | append_singleton r b ih =>
    rw [bitsValue_snoc, List.length_append, List.length_singleton, pow_succ]
    have := Bool.toNat_le b
    omega

theorem bitsValue_false (n : Nat) : bitsValue (List.replicate n false) = 0 := by
  induction n with
  | zero => rfl
  | succ n ih => rw [List.replicate_succ', bitsValue_snoc, ih]; rfl

theorem bitsValue_inj {l r : List Bool} (hlen : l.length = r.length) (h : bitsValue l = bitsValue r) : l = r := by
  induction l using List.reverseRecOn generalizing r with
  | nil => exact (List.length_eq_zero_iff.1 hlen.symm).symm
  | append_singleton l b ih =>
    rcases List.eq_nil_or_concat r with rfl | ⟨r, c, rfl⟩
    · simp at hlen
    · rw [List.concat_eq_append] at *
      rw [bitsValue_snoc, bitsValue_snoc] at h
      have h1 := Bool.toNat_le b
      have h2 := Bool.toNat_le c
      have : b = c := by
        cases b <;> cases c <;> simp at h ⊢ <;> omega
      subst this
      rw [ih (r := r) (by simpa using hlen) (by omega)]

theorem byteBits_value {b : Nat} (h : b < 256) : bitsValue (byteBits b) = b := by
  have : ∀ b < 256, bitsValue (byteBits b) = b := by decide +kernel
  exact this b h

theorem flat_value {f : Bytes} (h : ∀ b ∈ f, b < 256) :
    (f.flatMap byteBits).length = 8 * f.length ∧ bitsValue (f.flatMap byteBits) = beNat f := by
  induction f using List.reverseRecOn with
  | nil => exact ⟨rfl, rfl⟩
  | append_singleton f b ih =>
    obtain ⟨h1, h2⟩ := ih fun x hx => h x (List.mem_append_left _ hx)
    rw [List.flatMap_append, bitsValue_append, beNat_snoc, h2]
    simp only [List.flatMap_cons, List.flatMap_nil, List.append_nil]
    refine ⟨?_, ?_⟩
    · simp [h1, byteBits]; omega
    · rw [byteBits_value (h b (by simp)), show (byteBits b).length = 8 from rfl]
      ring

theorem bytesOfBits_spec (n : Nat) {l : List Bool} (h : l.length = 8 * n) : (bytesOfBits l).length = n ∧
    (∀ b ∈ bytesOfBits l, b < 256) ∧ beNat (bytesOfBits l) = bitsValue l := by
  induction n generalizing l with
  | zero =>
    have : l = [] := List.length_eq_zero_iff.1 (by omega)
    subst this
    exact ⟨rfl, by simp [bytesOfBits], rfl⟩
  | succ n ih =>
    obtain ⟨a, b, c, d, e, f, g, i, l, rfl⟩ : ∃ a b c d e f g i l', l = a :: b :: c :: d :: e :: f :: g :: i :: l' := by
      match l, h with
      | a :: b :: c :: d :: e :: f :: g :: i :: l', _ => exact ⟨a, b, c, d, e, f, g, i, l', rfl⟩
      | [], h | [_], h | [_, _], h | [_, _, _], h | [_, _, _, _], h | [_, _, _, _, _], h | [_, _, _, _, _, _], h
      | [_, _, _, _, _, _, _], h => simp at h <;> omega
    obtain ⟨h1, h2, h3⟩ := ih (l := l) (by simp at h; omega)
    have hb := bitsValue_lt [a, b, c, d, e, f, g, i]
    refine ⟨by simp [bytesOfBits, h1], ?_, ?_⟩
    · intro x hx
      rw [bytesOfBits, List.mem_cons] at hx
      rcases hx with rfl | hx
      · exact Nat.lt_of_lt_of_eq hb (by simp)
      · exact h2 x hx
    · rw [bytesOfBits]
      have e1 := beNat_append [bitsValue [a, b, c, d, e, f, g, i]] (bytesOfBits l)
      have e2 := bitsValue_append [a, b, c, d, e, f, g, i] l
      have e3 : beNat [bitsValue [a, b, c, d, e, f, g, i]] = bitsValue [a, b, c, d, e, f, g, i] := by simp [beNat]
      rw [e3, h1, h3] at e1
      have e4 : l.length = 8 * n := by simp at h; omega
      rw [e4, pow_mul] at e2
      exact e1.trans e2.symm

/-- `from_bits` accepts exactly the sequences of at most 251 bits and gives their number. -/
theorem C28_from_bits {l : List Bool} :
    (251 < l.length → fromBits l = none) ∧
    (l.length ≤ 251 → ∃ f, fromBits l = some f ∧ FeltOf f (l.foldl (fun acc b => 2 * acc + b.toNat) 0)) := by
  unfold fromBits
  refine ⟨fun h => by rw [if_pos h], fun h => ?_⟩
  rw [if_neg (by omega)]
  obtain ⟨h1, h2, h3⟩ := bytesOfBits_spec 32 (l := List.replicate (256 - l.length) false ++ l) (by simp; omega)
  refine ⟨_, rfl, h1, h2, ?_, ?_⟩
  · show beNat _ = bitsValue l
    rw [h3, bitsValue_append, bitsValue_false]; simp
  · have h4 := bitsValue_lt l
    have h5 := Nat.pow_le_pow_right (n := 2) (by decide) h
    have h6 : 2 ^ 251 < Kind.felt.prime := by decide +kernel
    show bitsValue l < _
    omega

/-- `view_bits` shows the 251 lowest bits: for a number below `2^251`, reading them back gives the same element. -/
theorem C28_view_bits {f : Bytes} {n : Nat} (hf : FeltOf f n) : (viewBits f).length = 251 ∧
    (viewBits f).foldl (fun acc b => 2 * acc + b.toNat) 0 = n % 2 ^ 251 ∧
    (n < 2 ^ 251 → fromBits (viewBits f) = some f) := by
  obtain ⟨h1, h2⟩ := flat_value hf.bytes
  rw [hf.length] at h1
  have hl : (viewBits f).length = 251 := by simp only [viewBits, List.length_drop, h1]
  have hv : bitsValue (viewBits f) = n % 2 ^ 251 := by
    have e := bitsValue_append ((f.flatMap byteBits).take 5) (viewBits f)
    rw [viewBits, List.take_append_drop, h2] at e
    have hlt := bitsValue_lt (viewBits f)
    rw [hl] at hlt
    have hlen : ((f.flatMap byteBits).drop 5).length = 251 := hl
    rw [hlen] at e
    have e' : n = bitsValue (viewBits f) + 2 ^ 251 * bitsValue ((f.flatMap byteBits).take 5) := by
      rw [Nat.add_comm, Nat.mul_comm]; exact hf.value.symm.trans e
    rw [e', Nat.add_mul_mod_self_left, Nat.mod_eq_of_lt hlt]
  refine ⟨hl, hv, fun hn => ?_⟩
  obtain ⟨g, h3, h4⟩ := (C28_from_bits (l := viewBits f)).2 (by omega)
  rw [h3]
  have h5 : (viewBits f).foldl (fun acc b => 2 * acc + b.toNat) 0 = n := by
    have := hv
    rw [Nat.mod_eq_of_lt hn] at this
    exact this
  rw [h5] at h4
  rw [h4.unique hf]

/-- Reading the bits of what `from_bits` made of 251 bits gives the bits. -/
theorem C28_bits_round_trip {l : List Bool} (h : l.length = 251) : ∃ f, fromBits l = some f ∧ viewBits f = l := by
  obtain ⟨f, h1, h2⟩ := (C28_from_bits (l := l)).2 (by omega)
  obtain ⟨h3, h4, _⟩ := C28_view_bits h2
  refine ⟨f, h1, bitsValue_inj (h3.trans h.symm) ?_⟩
  have := bitsValue_lt l
  rw [h] at this
  exact h4.trans (Nat.mod_eq_of_lt this)

/-- Concrete cases. -/
example : feltToInt 24 (List.replicate 24 0 ++ [1, 2, 3, 4, 5, 6, 7, 8]) = some 0x0102030405060708 ∧
    feltToInt 24 (List.replicate 23 0 ++ [1, 1, 2, 3, 4, 5, 6, 7, 8]) = none ∧
    hasMoreThan251Bits ([8] ++ List.replicate 31 0) = true ∧
    fromBits [true, false, true] = some (List.replicate 31 0 ++ [5]) := by decide +kernel

/-! ## Decimal texts -/

/-- Writing an element as a decimal text and reading it gives the same element, if the big number library reads what it
writes, writes decimal digits only and gives the bytes of a number. -/
theorem C28_dec_round_trip {parse : Bytes → Option Nat} {toBytes shown : Nat → Bytes}
    (hparse : ∀ n, parse (shown n) = some n) (hdigits : ∀ n, ∀ c ∈ shown n, 48 ≤ c ∧ c ≤ 57)
    (hbytes : ∀ n, (∀ b ∈ toBytes n, b < 256) ∧ (toBytes n).foldl (fun acc b => 256 * acc + b) 0 = n)
    (hlen : ∀ n < 256 ^ 32, (toBytes n).length ≤ 32) {f : Bytes} {n : Nat} (hf : FeltOf f n) :
    fromDecStr parse toBytes (toDecStr shown f) = some f := by
  have hv : beNat f = n := hf.value
  unfold fromDecStr toDecStr
  rw [hv]
  have hn : n < 256 ^ 32 := by
    have h1 : Kind.felt.prime < 256 ^ 32 := by decide +kernel
    have := hf.below
    omega
  cases e : fromHexStr (shown n) with
  | ok g =>
    obtain ⟨d, k, h1, _⟩ := C28_hex_accepts.1 e
    have := hdigits n 120 (by rw [h1]; simp)
    omega
  | error _ =>
    simp only [hparse n, Option.bind_some, fromBigUint]
    rw [C28_from_slice (hbytes n).1, (hbytes n).2]
    exact ⟨hlen n hn, hf⟩

end Verif.Crypto
