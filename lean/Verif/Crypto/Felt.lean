import Verif.Crypto.Limbs
/-!
# The byte form of field elements and its codecs

Model of `crates/crypto/src/algebra/field/felt.rs` and of the conversions in `montfelt/convert.rs`, `curveorder/convert.rs`.
A `Felt` is its 32 big-endian bytes; a byte is a number below 256; a text is the list of its bytes.
-/
namespace Verif.Crypto

abbrev Bytes := List Nat

/-- `u64::from_be_bytes`, `u128::from_be_bytes`, `BigUint::from_bytes_be`: the number with these bytes. -/
def beNat (l : Bytes) : Nat := l.foldl (fun acc b => 256 * acc + b) 0

/-- `u64::to_be_bytes` for 8 bytes, `u128::to_be_bytes` for 16: the lowest `n` bytes, the highest first. -/
def natBytes : Nat → Nat → Bytes
  | 0, _ => []
  | n + 1, x => natBytes n (x / 256) ++ [x % 256]

/-- `MODULUS_U64` (felt.rs:20). -/
def modulusU64 : List Nat := [576460752303423505, 0, 0, 1]

/-- The four words of `from_be_bytes` (felt.rs:139-157). -/
def words (b : Bytes) : List Nat :=
  [beNat (b.take 8), beNat ((b.drop 8).take 8), beNat ((b.drop 16).take 8), beNat ((b.drop 24).take 8)]

/-- The loop of `from_be_bytes` (felt.rs:160-174): whether the words are below the modulus. -/
def wordsBelow : List Nat → List Nat → Bool
  | a :: as, m :: ms => if a < m then true else if a > m then false else wordsBelow as ms
  | _, _ => false

/-- `Felt::from_be_bytes` (felt.rs:137-175). -/
def feltFromBytes (b : Bytes) : Option Bytes := if wordsBelow (words b) modulusU64 then some b else none

/-- `Felt::from_be_slice` (felt.rs:111-127), the loop that copies to the end of the buffer written as an append. -/
def feltFromSlice (b : Bytes) : Option Bytes :=
  if b.length > 32 then none else feltFromBytes (List.replicate (32 - b.length) 0 ++ b)

/-- `Felt::from_u64` (felt.rs:202-207); the outer `none` is the panic of `const_expect`. -/
def feltFromU64 (u : Nat) : Option Bytes := feltFromSlice (natBytes 8 u)

/-- `Felt::from_u128` (felt.rs:209-214). -/
def feltFromU128 (u : Nat) : Option Bytes := feltFromSlice (natBytes 16 u)

/-- `TryInto<u128>` with `zeros = 16` and `TryInto<u64>` with `zeros = 24` (felt.rs:254-287). -/
def feltToInt (zeros : Nat) (f : Bytes) : Option Nat :=
  if (f.takeWhile (· == 0)).length < zeros then none else some (beNat (f.drop zeros))

/-- `Felt::has_more_than_251_bits` (felt.rs:198-200): `b & 0b1111_1000 > 0` says that the byte is at least eight. -/
def hasMoreThan251Bits (f : Bytes) : Bool := f.headD 0 / 8 > 0

/-- `HexParseError` (felt.rs:495-500). -/
inductive HexError
  | invalidNibble (c : Nat)
  | invalidLength (actual : Nat)
  | missingPrefix
  | overflow
  deriving DecidableEq, Repr

/-- `parse_hex_digit` (felt.rs:331-338). -/
def parseHexDigit (c : Nat) : Except HexError Nat :=
  if 48 ≤ c ∧ c ≤ 57 then .ok (c - 48)
  else if 65 ≤ c ∧ c ≤ 70 then .ok (c - 65 + 10)
  else if 97 ≤ c ∧ c ≤ 102 then .ok (c - 97 + 10)
  else .error (.invalidNibble c)

/-- The loop of `from_hex_str` (felt.rs:366-380) with `rem` turns to go; `(upper << 4) | lower` for nibbles is the sum. -/
def hexLoop (bytes : Bytes) : Nat → Nat → Bytes → Except HexError Bytes
  | 0, _, buf => .ok buf
  | rem + 1, chunk, buf =>
    match parseHexDigit (bytes.getD (bytes.length - chunk * 2 - 1) 0) with
    | .error e => .error e
    | .ok lower =>
      match parseHexDigit (bytes.getD (bytes.length - chunk * 2 - 2) 0) with
      | .error e => .error e
      | .ok upper => hexLoop bytes rem (chunk + 1) (buf.set (31 - chunk) (16 * upper + lower))

/-- The buffer after the odd nibble (felt.rs:352-364). -/
def hexInit (bytes : Bytes) (len : Nat) : Except HexError Bytes :=
  if len % 2 = 1 then
    match parseHexDigit (bytes.getD 2 0) with
    | .error e => .error e
    | .ok b => .ok ((List.replicate 32 0).set (31 - len / 2) b)
  else .ok (List.replicate 32 0)

/-- `Felt::from_hex_str` once the length is known (felt.rs:352-386). -/
def hexBody (bytes : Bytes) (len : Nat) : Except HexError Bytes :=
  match hexInit bytes len with
  | .error e => .error e
  | .ok buf =>
    match hexLoop bytes (len / 2) 0 buf with
    | .error e => .error e
    | .ok buf =>
      match feltFromBytes buf with
      | some f => .ok f
      | none => .error .overflow

/-- `Felt::from_hex_str` (felt.rs:330-387). -/
def fromHexStr (bytes : Bytes) : Except HexError Bytes :=
  match bytes with
  | 48 :: 120 :: rest => if rest.length > 64 then .error (.invalidLength rest.length) else hexBody bytes rest.length
  | _ => .error .missingPrefix

/-- An entry of `LUT` (felt.rs:409). -/
def lut (n : Nat) : Nat := if n < 10 then 48 + n else 87 + n

/-- The loop of `it_to_hex_str` (felt.rs:412-417). -/
def hexWrite (start : Nat) : Bytes → Nat → Bytes → Bytes
  | [], _, buf => buf
  | b :: bs, i, buf =>
    let pos := start + i * 2
    hexWrite start bs (i + 1) ((buf.set pos (lut (b / 16))).set (pos + 1) (lut (b % 16)))

/-- `skip_zeros` and `it_to_hex_str` (felt.rs:390-420) into a buffer. -/
def hexText (f buf : Bytes) : Bytes :=
  let it := f.dropWhile (· == 0)
  let start := if f.getD (f.length - it.length) 0 < 0x10 then 1 else 2
  let len := start + it.length * 2
  ((hexWrite start it 0 (buf.set 0 48)).set 1 120).take len

/-- `Felt::as_hex_str` (felt.rs:425-442) with a buffer of at least 66 bytes. -/
def asHexStr (f buf : Bytes) : Bytes := if !f.any (· != 0) then [48, 120, 48] else hexText f buf

/-- `Felt::to_hex_str` (felt.rs:446-455). -/
def toHexStr (f : Bytes) : Bytes :=
  if !f.any (· != 0) then [48, 120, 48]
  else
    let it := f.dropWhile (· == 0)
    let start := if f.getD (f.length - it.length) 0 < 0x10 then 1 else 2
    hexText f (List.replicate (start + it.length * 2) 0)

/-- `LowerHex` and `UpperHex` (felt.rs:35-45): two digits for every byte; `letter` is the code of the digit ten. `Display` and
`Debug` put `0x` in front of the latter. -/
def fmtHex (letter : Nat) (f : Bytes) : Bytes :=
  f.flatMap fun b => [b / 16, b % 16].map fun d => if d < 10 then 48 + d else letter + (d - 10)

/-- The limbs of big-endian bytes (montfelt/convert.rs:7-20, curveorder/convert.rs:7-20). -/
def limbsOfBytes (b : Bytes) : Limbs :=
  ⟨beNat ((b.drop 24).take 8), beNat ((b.drop 16).take 8), beNat ((b.drop 8).take 8), beNat (b.take 8)⟩

/-- `MontFelt::from_be_bytes`, `From<Felt> for MontFelt` (montfelt/convert.rs:6-22 and 56-61). -/
def montFromBytes (m : Modulus) (b : Bytes) : Limbs := fromNative m (limbsOfBytes b)

/-- `MontFelt::to_be_bytes` (montfelt/convert.rs:24-42). -/
def montToBytes (m : Modulus) (x : Limbs) : Bytes :=
  let s := toNative m x
  natBytes 8 s.l3 ++ natBytes 8 s.l2 ++ natBytes 8 s.l1 ++ natBytes 8 s.l0

/-- `From<MontFelt> for Felt`, `From<CurveOrderMontFelt> for Felt` (felt.rs:307-323); `none` is the panic of `unwrap`. -/
def feltOfMont (m : Modulus) (x : Limbs) : Option Bytes := feltFromBytes (montToBytes m x)

/-- `Add for Felt` (felt.rs:289-296). -/
def feltAdd (a b : Bytes) : Option Bytes :=
  feltOfMont fieldMod (add fieldMod (montFromBytes fieldMod a) (montFromBytes fieldMod b))

/-- `Sub for Felt` (felt.rs:298-305). -/
def feltSub (a b : Bytes) : Option Bytes :=
  feltOfMont fieldMod (sub fieldMod (montFromBytes fieldMod a) (montFromBytes fieldMod b))

/-- The bits of a byte, the highest first (`Msb0`). -/
def byteBits (b : Nat) : List Bool := [b.testBit 7, b.testBit 6, b.testBit 5, b.testBit 4, b.testBit 3, b.testBit 2,
  b.testBit 1, b.testBit 0]

/-- `Felt::view_bits` (felt.rs:178-180). -/
def viewBits (f : Bytes) : List Bool := (f.flatMap byteBits).drop 5

/-- The number with these bits, the highest first. -/
def bitsValue (l : List Bool) : Nat := l.foldl (fun acc b => 2 * acc + b.toNat) 0

/-- The bytes of a sequence of bits (`view_bits_mut` of a buffer), for a length that is a multiple of eight. -/
def bytesOfBits : List Bool → Bytes
  | a :: b :: c :: d :: e :: f :: g :: h :: l => bitsValue [a, b, c, d, e, f, g, h] :: bytesOfBits l
  | _ => []

/-- `Felt::from_bits` (felt.rs:183-192). -/
def fromBits (l : List Bool) : Option Bytes :=
  if l.length > 251 then none else some (bytesOfBits (List.replicate (256 - l.length) false ++ l))

/-- `Felt::from_biguint` (felt.rs:461-463); `to_bytes_be` has no leading zeros and at least one byte. -/
def fromBigUint (toBytes : Nat → Bytes) (n : Nat) : Option Bytes := feltFromSlice (toBytes n)

/-- `Felt::from_dec_str` (felt.rs:469-480), with `BigUint::from_str` and `BigUint::to_bytes_be` as parameters. -/
def fromDecStr (parse : Bytes → Option Nat) (toBytes : Nat → Bytes) (s : Bytes) : Option Bytes :=
  match fromHexStr s with
  | .ok h => some h
  | .error _ => (parse s).bind (fromBigUint toBytes)

/-- `Felt::to_dec_str` (felt.rs:486-490), with `to_str_radix(10)` as a parameter. -/
def toDecStr (shown : Nat → Bytes) (f : Bytes) : Bytes := shown (beNat f)

end Verif.Crypto
