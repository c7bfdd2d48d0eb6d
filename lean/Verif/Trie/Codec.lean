/-
Model of the byte encoding of trie nodes: `StoredNode::encode` / `StoredNode::decode`,
crates/storage/src/connection/trie.rs 831-898, and of the removal markers' `indices` column (trie.rs 409-418,
470-474).  The bincode 2 "standard" configuration (little endian, variable-length integers, no limit) and the
`bitvec` packing (`Msb0` order in `u8`) are modelled from their documentation.
-/
import Verif.Trie.Model

namespace Verif.Trie

/-- `k` bytes of `n`, little endian. -/
def leBytes : Nat → Nat → List UInt8
  | 0, _ => []
  | k + 1, n => UInt8.ofNat (n % 256) :: leBytes k (n / 256)

/-- Little endian bytes as a number. -/
def leNat : List UInt8 → Nat
  | [] => 0
  | b :: bs => b.toNat + 256 * leNat bs

/-- bincode varint of an unsigned integer that fits in a `u64`. -/
def encVarint (n : Nat) : List UInt8 :=
  if n < 251 then [UInt8.ofNat n]
  else if n < 2 ^ 16 then 251 :: leBytes 2 n
  else if n < 2 ^ 32 then 252 :: leBytes 4 n
  else 253 :: leBytes 8 n

/-- Take exactly `k` bytes and read them as a little endian number. -/
def takeLe (k : Nat) (bs : List UInt8) : Option (Nat × List UInt8) :=
  if k ≤ bs.length then some (leNat (bs.take k), bs.drop k) else none

/-- bincode varint decoding of a `u64`; `none` is a decode error. -/
def decVarint : List UInt8 → Option (Nat × List UInt8)
  | [] => none
  | b :: bs =>
    if b.toNat < 251 then some (b.toNat, bs)
    else if b.toNat = 251 then takeLe 2 bs
    else if b.toNat = 252 then takeLe 4 bs
    else if b.toNat = 253 then takeLe 8 bs
    else none

/-- bincode encoding of a `Vec<u8>`: length, then the bytes. -/
def encBytes (bs : List UInt8) : List UInt8 := encVarint bs.length ++ bs

/-- bincode decoding of a `Vec<u8>`. -/
def decBytes (bs : List UInt8) : Option (List UInt8 × List UInt8) :=
  match decVarint bs with
  | none => none
  | some (n, rest) => if n ≤ rest.length then some (rest.take n, rest.drop n) else none

/-- One byte from (at most) eight bits, most significant first. -/
def byteOfBits (p : List Bool) : UInt8 := UInt8.ofNat (p.foldl (fun a b => 2 * a + b.toNat) 0)

/-- The eight bits of a byte, most significant first. -/
def bitsOfByte (b : UInt8) : List Bool := (List.range 8).map fun i => b.toNat.testBit (7 - i)

/-- Bits to bytes, eight at a time. -/
def packBits : List Bool → List UInt8
  | a :: b :: c :: d :: e :: f :: g :: h :: rest => byteOfBits [a, b, c, d, e, f, g, h] :: packBits rest
  | _ => []

/-- Number of unused bits in the last byte. -/
def padLen (n : Nat) : Nat := (8 - n % 8) % 8

/-- `path.force_align(); path.into_vec()`, trie.rs 845-846.  The bits of the last byte beyond the length are not
cleared by `into_vec`: `dead` is their (arbitrary) content. -/
def alignedVec (dead path : List Bool) : List UInt8 := packBits (path ++ dead.take (padLen path.length))

/-- `BitVec::from_vec`, trie.rs 881. -/
def fromVec (bs : List UInt8) : List Bool := bs.flatMap bitsOfByte

/-- `BitVec::resize(len, false)`, trie.rs 882. -/
def resize (len : Nat) (bits : List Bool) : List Bool :=
  bits.take len ++ List.replicate (len - bits.length) false

/-- The path bytes of an edge: packed bits followed by the bit length as one byte, trie.rs 842-847. -/
def encPath (dead path : List Bool) : List UInt8 := alignedVec dead path ++ [UInt8.ofNat (path.length % 256)]

/-- trie.rs 878-883; `none` when the length byte is missing. -/
def decPath (bs : List UInt8) : Option (List Bool) :=
  match bs.getLast? with
  | none => none
  | some len => some (resize len.toNat (fromVec bs.dropLast))

/-- `StoredNode::encode`, trie.rs 836-869: the bytes produced.  The variant index is a varint `u32`
(`StoredSerde`, trie.rs 815-829). -/
def encodeNode (dead : List Bool) : StoredNode → List UInt8
  | .binary l r => encVarint 0 ++ encVarint l ++ encVarint r
  | .edge c p => encVarint 1 ++ encVarint c ++ encBytes (encPath dead p)
  | .leafBinary => encVarint 2
  | .leafEdge p => encVarint 3 ++ encBytes (encPath dead p)

/-- `bincode::encode_into_slice` fails when the buffer is too small. -/
def encodeInto (dead : List Bool) (buf : Nat) (n : StoredNode) : Option (List UInt8) :=
  if (encodeNode dead n).length ≤ buf then some (encodeNode dead n) else none

/-- `StoredNode::decode`, trie.rs 871-897 (trailing bytes are ignored). -/
def decodeNode (bs : List UInt8) : Option StoredNode :=
  match decVarint bs with
  | none => none
  | some (v, bs) =>
    if v = 0 then
      match decVarint bs with
      | none => none
      | some (l, bs) => match decVarint bs with
        | none => none
        | some (r, _) => some (.binary l r)
    else if v = 1 then
      match decVarint bs with
      | none => none
      | some (c, bs) => match decBytes bs with
        | none => none
        | some (p, _) => (decPath p).map (.edge c)
    else if v = 2 then some .leafBinary
    else if v = 3 then
      match decBytes bs with
      | none => none
      | some (p, _) => (decPath p).map .leafEdge
    else none

/-- The `indices` column of a removal marker: a bincode `Vec<u64>`, trie.rs 413-416. -/
def encodeIndices (is : List Nat) : List UInt8 := encVarint is.length ++ is.flatMap encVarint

/-- `n` varints. -/
def decMany : Nat → List UInt8 → Option (List Nat × List UInt8)
  | 0, bs => some ([], bs)
  | n + 1, bs => match decVarint bs with
    | none => none
    | some (i, bs) => match decMany n bs with
      | none => none
      | some (is, bs) => some (i :: is, bs)

/-- `bincode::decode_from_slice::<Vec<u64>, _>`, trie.rs 470-474. -/
def decodeIndices (bs : List UInt8) : Option (List Nat) :=
  match decVarint bs with
  | none => none
  | some (n, bs) => (decMany n bs).map (·.1)

end Verif.Trie
