/-
The string form of continuation tokens: crates/rpc/src/method/get_events.rs 608-636.
A string is the list of its characters. Numbers are written and read as the standard library does: decimal digits, no
leading zeros; reading accepts a leading `+` and leading zeros and refuses an empty string and anything above the bound.
-/
namespace Verif.Events.TokenText

def digitChar (n : Nat) : Char := Char.ofNat (48 + n)

/-- `Display` of `u64` and `usize`. -/
def showNat (n : Nat) : List Char := if n < 10 then [digitChar n] else showNat (n / 10) ++ [digitChar (n % 10)]

/-- One step of `from_str_radix(10)`: multiplication and addition are checked. -/
def readDigit (bound : Nat) (acc : Option Nat) (c : Char) : Option Nat :=
  match acc with
  | none => none
  | some a => if 48 ≤ c.toNat ∧ c.toNat < 58 then
      if a * 10 + (c.toNat - 48) < bound then some (a * 10 + (c.toNat - 48)) else none
    else none

/-- `parse::<u64>()` (`bound = 2^64`): a leading `+` is allowed, an empty string or a single sign is an error. -/
def readNat (bound : Nat) (s : List Char) : Option Nat :=
  match s with
  | [] => none
  | c :: cs => if c = '+' then (if cs.isEmpty then none else cs.foldl (readDigit bound) (some 0))
    else s.foldl (readDigit bound) (some 0)

/-- `ContinuationToken`, get_events.rs 608-612. -/
structure Token where
  block : Nat
  offset : Nat
deriving DecidableEq, Repr

/-- `Display`, get_events.rs 638-642. -/
def showToken (t : Token) : List Char := showNat t.block ++ '-' :: showNat t.offset

/-- `split_once('-')`. -/
def splitOnce (s : List Char) : Option (List Char × List Char) :=
  match s with
  | [] => none
  | c :: cs => if c = '-' then some ([], cs) else (splitOnce cs).map fun r => (c :: r.1, r.2)

/-- `BlockNumber::new`, crates/common/src/lib.rs: at most `i64::MAX`. -/
def blockNumber (n : Nat) : Option Nat := if n ≤ 2 ^ 63 - 1 then some n else none

/-- `FromStr`, get_events.rs 614-636. -/
def readToken (s : List Char) : Option Token :=
  match splitOnce s with
  | none => none
  | some (b, o) =>
    match readNat (2 ^ 64) b, readNat (2 ^ 64) o with
    | some b, some o => (blockNumber b).map fun b => ⟨b, o⟩
    | _, _ => none

/-! ### lemmas -/

theorem digitChar_toNat {n : Nat} (h : n < 10) : (digitChar n).toNat = 48 + n := by
  have : n = 0 ∨ n = 1 ∨ n = 2 ∨ n = 3 ∨ n = 4 ∨ n = 5 ∨ n = 6 ∨ n = 7 ∨ n = 8 ∨ n = 9 := by omega
  rcases this with rfl | rfl | rfl | rfl | rfl | rfl | rfl | rfl | rfl | rfl <;> rfl

theorem showNat_digits (n : Nat) : ∀ c ∈ showNat n, 48 ≤ c.toNat ∧ c.toNat < 58 := by
  induction n using showNat.induct with
  | case1 n h =>
    rw [showNat, if_pos h]
    intro c hc
    simp only [List.mem_singleton] at hc
    subst hc
    rw [digitChar_toNat h]
    omega
  | case2 n h ih =>
    rw [showNat, if_neg h]
    intro c hc
    rw [List.mem_append] at hc
    rcases hc with hc | hc
    · exact ih c hc
    · simp only [List.mem_singleton] at hc
      subst hc
      rw [digitChar_toNat (by omega)]
      omega

theorem showNat_ne (n : Nat) : showNat n ≠ [] := by
  rw [showNat]
  split <;> simp

theorem foldl_show (bound n : Nat) (h : n < bound) : (showNat n).foldl (readDigit bound) (some 0) = some n := by
  induction n using showNat.induct with
  | case1 n hn =>
    rw [showNat, if_pos hn]
    simp only [List.foldl_cons, List.foldl_nil, readDigit, digitChar_toNat hn]
    rw [if_pos (by omega), if_pos (by omega)]
    congr 1
    omega
  | case2 n hn ih =>
    rw [showNat, if_neg hn, List.foldl_append, ih (by omega)]
    simp only [List.foldl_cons, List.foldl_nil, readDigit, digitChar_toNat (show n % 10 < 10 by omega)]
    rw [if_pos (by omega), if_pos (by omega)]
    congr 1
    omega

theorem readNat_show (bound n : Nat) (h : n < bound) : readNat bound (showNat n) = some n := by
  have hd := showNat_digits n
  have hn := showNat_ne n
  have hf := foldl_show bound n h
  cases hs : showNat n with
  | nil => exact absurd hs hn
  | cons c cs =>
    rw [hs] at hd hf
    have := hd c (by simp)
    unfold readNat
    simp only
    rw [if_neg]
    · exact hf
    · intro e
      subst e
      exact absurd this.1 (by decide)

theorem splitOnce_append (a b : List Char) (h : ∀ c ∈ a, c ≠ '-') : splitOnce (a ++ '-' :: b) = some (a, b) := by
  induction a with
  | nil => simp [splitOnce]
  | cons c a ih =>
    rw [List.cons_append, splitOnce, if_neg (h c (by simp)), ih (fun d hd => h d (by simp [hd]))]
    rfl

/-- A token that is written and read back is the same token. -/
theorem C50_token_round_trip (t : Token) (hb : t.block ≤ 2 ^ 63 - 1) (ho : t.offset < 2 ^ 64) : readToken (showToken t) = some t := by
  unfold readToken showToken
  rw [splitOnce_append _ _ (by
    intro c hc e
    subst e
    exact absurd (showNat_digits _ _ hc).1 (by decide))]
  simp only
  rw [readNat_show _ _ (by omega), readNat_show _ _ ho]
  simp only [blockNumber]
  rw [if_pos hb]
  rfl

/-- Different tokens are written differently. -/
theorem C50_token_injective (t t' : Token) (hb : t.block ≤ 2 ^ 63 - 1) (ho : t.offset < 2 ^ 64) (hb' : t'.block ≤ 2 ^ 63 - 1)
    (ho' : t'.offset < 2 ^ 64) (h : showToken t = showToken t') : t = t' := by
  have h1 := C50_token_round_trip t hb ho
  rw [h, C50_token_round_trip t' hb' ho'] at h1
  exact (Option.some.inj h1).symm

/-- Whatever a caller sends, a token that is accepted is within bounds. -/
theorem C50_accepted_in_bounds (s : List Char) (t : Token) (h : readToken s = some t) : t.block ≤ 2 ^ 63 - 1 ∧ t.offset < 2 ^ 64 := by
  have hfold : ∀ (cs : List Char) (a : Option Nat) (n : Nat), (∀ k, a = some k → k < 2 ^ 64) → cs.foldl (readDigit (2 ^ 64)) a = some n → n < 2 ^ 64 := by
    intro cs
    induction cs with
    | nil => intro a n ha h; exact ha n h
    | cons c cs ih =>
      intro a n ha h
      refine ih _ n ?_ h
      intro k hk
      unfold readDigit at hk
      split at hk
      · simp at hk
      · split at hk
        · split at hk
          · simp only [Option.some.injEq] at hk; omega
          · simp at hk
        · simp at hk
  have hread : ∀ (s : List Char) (n : Nat), readNat (2 ^ 64) s = some n → n < 2 ^ 64 := by
    intro s n h
    unfold readNat at h
    split at h
    · simp at h
    · split at h
      · split at h
        · simp at h
        · exact hfold _ _ n (by intro k hk; simp only [Option.some.injEq] at hk; omega) h
      · exact hfold _ _ n (by intro k hk; simp only [Option.some.injEq] at hk; omega) h
  unfold readToken at h
  split at h
  · simp at h
  · split at h
    next b o hb ho =>
      unfold blockNumber at h
      split at h
      · simp only [Option.map_some, Option.some.injEq] at h
        subst h
        exact ⟨by assumption, hread _ _ ho⟩
      · simp at h
    · simp at h

example : showToken ⟨120, 7⟩ = ['1', '2', '0', '-', '7'] ∧ readToken ['1', '2', '0', '-', '7'] = some ⟨120, 7⟩ ∧
    readToken ['1', '2', '0'] = none ∧ readToken ['1', '-', '-', '2'] = none ∧ readToken ['+', '1', '-', '0', '2'] = some ⟨1, 2⟩ :=
  ⟨by simp [showToken, showNat, digitChar], by decide, by decide, by decide, by decide⟩

end Verif.Events.TokenText
