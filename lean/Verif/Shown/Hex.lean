/-!
# Numbers as text

Model of `hex_str` in `crates/rpc/src/dto/primitives.rs`, of the text forms of `crates/serde/src/lib.rs` that the API uses and of the
readers of numbers in requests. A byte is a number below 256; text is the list of its characters.
-/
namespace Verif.Shown

/-- `to_be_bytes` and `as_be_bytes`: the bytes of a number, most significant first. -/
def beBytes : Nat → Nat → List Nat
  | 0, _ => []
  | w + 1, n => beBytes w (n / 256) ++ [n % 256]

/-- `from_be_bytes`. -/
def ofBytes (l : List Nat) : Nat := l.foldl (fun a b => a * 256 + b) 0

/-- `LUT` (dto/primitives.rs:13). -/
def lut (n : Nat) : Char := "0123456789abcdef".toList.getD n '0'

/-- The two digits of a byte (dto/primitives.rs:54-59). -/
def twoDigits (b : Nat) : List Char := [lut (b / 16), lut (b % 16)]

/-- `to_hex_str` (dto/primitives.rs:35-63). Simplification: the buffer is the list of what is written to it. -/
def toHexStr (data : List Nat) (skipFirst : Bool) : List Char :=
  match skipFirst, data with
  | true, b :: bs => '0' :: 'x' :: lut (b % 16) :: bs.flatMap twoDigits
  | _, data => '0' :: 'x' :: data.flatMap twoDigits

/-- `bytes_to_hex_str_stripped` (dto/primitives.rs:15-28). -/
def hexStripped (data : List Nat) : List Char :=
  match data.dropWhile (· == 0) with
  | [] => ['0', 'x', '0']
  | b :: bs => toHexStr (b :: bs) (b / 16 == 0)

/-- `pathfinder_serde::bytes_to_hex_str` (serde/src/lib.rs:355-384 and 417-426). Simplification: with `start == 1` the first digit is written
over by the `x` (`it_to_hex_str` writes it last), so that it is left out here. -/
def hexSerde (data : List Nat) : List Char :=
  if data.all (· == 0) then ['0', 'x', '0']
  else
    let it := data.dropWhile (· == 0)
    let digits := it.flatMap twoDigits
    '0' :: 'x' :: if it.headD 0 < 0x10 then digits.drop 1 else digits

/-- `parse_hex_digit` (dto/primitives.rs:71-78, serde/src/lib.rs:315-322). -/
def parseDigit (c : Char) : Option Nat :=
  if '0' ≤ c ∧ c ≤ '9' then some (c.toNat - '0'.toNat)
  else if 'A' ≤ c ∧ c ≤ 'F' then some (c.toNat - 'A'.toNat + 10)
  else if 'a' ≤ c ∧ c ≤ 'f' then some (c.toNat - 'a'.toNat + 10)
  else none

/-- All digits, or an error. -/
def parseDigits : List Char → Option (List Nat)
  | [] => some []
  | c :: cs => do let d ← parseDigit c; let ds ← parseDigits cs; pure (d :: ds)

/-- The loop over the chunks, from the last to the first (dto/primitives.rs:109-117), and the odd digit (96-101). -/
def pairUp : List Nat → List Nat
  | lo :: hi :: r => (hi * 16 + lo) :: pairUp r
  | [x] => [x]
  | [] => []

/-- `bytes_from_hex_str_stripped` (dto/primitives.rs:65-120). Simplification: characters for bytes; the buffer is built as a list. -/
def fromHexStr (n : Nat) (s : List Char) : Option (List Nat) :=
  let ds := match s with
    | '0' :: 'x' :: r => r
    | s => s
  if ds.length > 2 * n then none
  else (parseDigits ds).map fun d =>
    let bytes := (pairUp d.reverse).reverse
    List.replicate (n - bytes.length) 0 ++ bytes

/-- `Felt::from_be_bytes` after the text is read (dto/primitives.rs:403-418): the number must be below the prime. -/
def readFelt (p : Nat) (s : List Char) : Option Nat :=
  (fromHexStr 32 s).bind fun b => if ofBytes b < p then some (ofBytes b) else none

/-- `u64::from_str_radix(_, 16)` of the standard library: an optional plus sign, at least one digit, no overflow. -/
def fromStrRadix16 (s : List Char) : Option Nat :=
  let ds := match s with
    | '+' :: r => r
    | s => s
  if ds.isEmpty then none
  else (parseDigits ds).bind fun d =>
    let v := d.foldl (fun a x => a * 16 + x) 0
    if v < 2 ^ 64 then some v else none

/-- `U64Hex::deserialize` (dto/primitives.rs:316-328). -/
def readU64 (s : List Char) : Option Nat :=
  fromStrRadix16 (match s with
    | '0' :: 'x' :: r => r
    | s => s)

/-- `U128Hex::deserialize` (dto/primitives.rs:336-350). -/
def readU128 (s : List Char) : Option Nat := (fromHexStr 16 s).map ofBytes

end Verif.Shown
