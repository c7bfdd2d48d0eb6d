import Verif.Crypto.FieldSpec
/-!
# What the codecs of field elements should do

Bytes are numbers below 256, texts are lists of character codes.
-/
namespace Verif.Crypto

/-- The character is a hex digit of this value: `0`-`9`, `A`-`F` or `a`-`f`. -/
def HexDigit (c d : Nat) : Prop :=
  (48 ≤ c ∧ c ≤ 57 ∧ d + 48 = c) ∨ (65 ≤ c ∧ c ≤ 70 ∧ d + 55 = c) ∨ (97 ≤ c ∧ c ≤ 102 ∧ d + 87 = c)

/-- The text is a sequence of hex digits for the number. -/
inductive Denotes : List Nat → Nat → Prop
  | nil : Denotes [] 0
  | snoc {s n c d} : Denotes s n → HexDigit c d → Denotes (s ++ [c]) (16 * n + d)

/-- A `Felt` for the number: its 32 big-endian bytes, and the number is below the field prime. -/
structure FeltOf (f : List Nat) (n : Nat) : Prop where
  length : f.length = 32
  bytes : ∀ b ∈ f, b < 256
  value : f.foldl (fun acc b => 256 * acc + b) 0 = n
  below : n < Kind.felt.prime

end Verif.Crypto
