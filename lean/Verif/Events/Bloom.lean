/-
Model of the event Bloom filters: crates/storage/src/bloom.rs and the filter part of
crates/storage/src/connection/event.rs (check, check_addresses, check_keys, set_address, set_keys).

Bytes are `BitVec 8`, a `Vec<u8>` is the list of its bytes, a felt is its 32 big endian bytes as `BitVec 256`.
The two SipHash functions are parameters. The sizes are parameters too: the production values are
`rangeBytes = 1024` (8192 blocks) and `bloomBytes = 2048` (16384 bits); the test build of the code uses
`rangeBytes = 3`. zstd compression of stored bitmaps is the identity.
-/
namespace Verif.Events

abbrev Byte := BitVec 8
abbrev Felt := BitVec 256

/-- `AggregateBloom::BLOCK_RANGE_BYTES` (bloom.rs 101), `BloomFilter::BITVEC_BYTES` (bloom.rs 456-458) and the two
hash functions `SIPS` (bloom.rs 432-441) applied to a felt. -/
structure Cfg where
  rangeBytes : Nat
  bloomBytes : Nat
  rangePos : 0 < rangeBytes
  bloomPos : 0 < bloomBytes
  sip0 : Felt → UInt64
  sip1 : Felt → UInt64

/-- `AGGREGATE_BLOOM_BLOCK_RANGE_LEN`, bloom.rs 73-80. -/
def Cfg.len (c : Cfg) : Nat := 8 * c.rangeBytes

/-- `BloomFilter::BITVEC_BITS`, bloom.rs 456. -/
def Cfg.bits (c : Cfg) : Nat := 8 * c.bloomBytes

/-! ### BloomFilter -/

/-- `BitVec<u8, Msb0>::set(i, true)`: bit `i` is bit `7 - i % 8` of byte `i / 8`. -/
def setBit (bs : List Byte) (i : Nat) : List Byte := bs.modify (i / 8) fun b => b ||| (1#8 <<< (7 - i % 8))

/-- `BloomFilter::new`, bloom.rs 461-464. -/
def bloomNew (c : Cfg) : List Byte := List.replicate c.bloomBytes 0#8

/-- `BloomFilter::bloom_hash`, bloom.rs 507-518: the hash and the updated pair of base hashes. -/
def bloomHash (c : Cfg) (hashes : UInt64 × UInt64) (item : Felt) (k : Nat) : UInt64 × (UInt64 × UInt64) :=
  if k = 0 then (c.sip0 item, (c.sip0 item, hashes.2))
  else if k = 1 then (c.sip1 item, (hashes.1, c.sip1 item))
  else ((hashes.1 + UInt64.ofNat k * hashes.2) % 0xFFFFFFFFFFFFFFC5, hashes)

/-- `K_NUM`, bloom.rs 444. -/
def kNum : Nat := 12

/-- `BloomFilter::set`, bloom.rs 487-493, the loop from `k` on with `fuel` iterations left. -/
def bloomSetLoop (c : Cfg) (item : Felt) : Nat → Nat → UInt64 × UInt64 → List Byte → List Byte
  | 0, _, _, bs => bs
  | fuel + 1, k, hashes, bs =>
    let (h, hashes') := bloomHash c hashes item k
    bloomSetLoop c item fuel (k + 1) hashes' (setBit bs (h.toNat % c.bits))

def bloomSet (c : Cfg) (bs : List Byte) (item : Felt) : List Byte := bloomSetLoop c item kNum 0 (0, 0) bs

/-- `BloomFilter::indices_for_key`, bloom.rs 496-505. -/
def indicesLoop (c : Cfg) (item : Felt) : Nat → Nat → UInt64 × UInt64 → List Nat
  | 0, _, _ => []
  | fuel + 1, k, hashes =>
    let (h, hashes') := bloomHash c hashes item k
    h.toNat % c.bits :: indicesLoop c item fuel (k + 1) hashes'

def indicesForKey (c : Cfg) (item : Felt) : List Nat := indicesLoop c item kNum 0 (0, 0)

/-! ### keys and addresses -/

/-- An event, crates/common/src/event.rs. -/
structure Event where
  data : List Felt
  addr : Felt
  keys : List Felt
deriving DecidableEq, Repr

/-- `EVENT_KEY_FILTER_LIMIT`, event.rs 19. -/
def keyLimit : Nat := 16

/-- `key.as_mut_be_bytes()[0] |= (i as u8) << 4`, event.rs 566-568 and 598-599. -/
def tagKey (i : Nat) (key : Felt) : Felt := key ||| ((((BitVec.ofNat 8 i) <<< 4).setWidth 256) <<< 248)

/-- `BloomFilter::set_address`, event.rs 592-594. -/
def setAddress (c : Cfg) (bs : List Byte) (a : Felt) : List Byte := bloomSet c bs a

/-- `BloomFilter::set_keys`, event.rs 596-602. -/
def setKeys (c : Cfg) (bs : List Byte) (keys : List Felt) : List Byte :=
  ((keys.take keyLimit).zipIdx).foldl (fun bs ki => bloomSet c bs (tagKey ki.2 ki.1)) bs

/-- The Bloom filter of a block, event.rs 125-129 and 777-781. -/
def blockBloom (c : Cfg) (events : List Event) : List Byte :=
  events.foldl (fun bs e => setAddress c (setKeys c bs e.keys) e.addr) (bloomNew c)

/-! ### AggregateBloom -/

/-- `AggregateBloom`, bloom.rs 85-97. -/
structure Agg where
  bitmap : List Byte
  fromBlock : Nat
  toBlock : Nat
deriving DecidableEq

/-- `AggregateBloom::new`, bloom.rs 106-110. -/
def aggNew (c : Cfg) (fromBlock : Nat) : Agg :=
  { bitmap := List.replicate (c.rangeBytes * c.bits) 0#8, fromBlock, toBlock := fromBlock + c.len - 1 }

/-- The statement `self.bitmap[bitmap_idx] |= bit << (7 - bit_idx)`, bloom.rs 180-190. -/
def aggSetBit (c : Cfg) (byteIdx bitIdx i : Nat) (bloomByte : Byte) (bitmap : List Byte) (offset : Nat) : List Byte :=
  bitmap.modify ((8 * i + offset) * c.rangeBytes + byteIdx) fun x =>
    x ||| (((bloomByte >>> (7 - offset)) &&& 1#8) <<< (7 - bitIdx))

/-- The loop over the bytes of the block's filter, bloom.rs 174-191. -/
def aggLoop (c : Cfg) (byteIdx bitIdx : Nat) (bitmap : List Byte) (ib : Byte × Nat) : List Byte :=
  if ib.1 = 0#8 then bitmap else (List.range 8).foldl (aggSetBit c byteIdx bitIdx ib.2 ib.1) bitmap

/-- `AggregateBloom::insert`, bloom.rs 154-192. `none` is the panic of the range assertion. -/
def aggInsert (c : Cfg) (a : Agg) (bloom : List Byte) (block : Nat) : Option Agg :=
  if a.fromBlock ≤ block ∧ block ≤ a.toBlock then
    let rel := block - a.fromBlock
    some { a with bitmap := bloom.zipIdx.foldl (aggLoop c (rel / 8) (rel % 8)) a.bitmap }
  else none

/-- `BlockRange::FULL` and `BlockRange::EMPTY`, bloom.rs 248-251. -/
def rangeFull (c : Cfg) : List Byte := List.replicate c.rangeBytes 255#8
def rangeEmpty (c : Cfg) : List Byte := List.replicate c.rangeBytes 0#8

/-- `BitAndAssign` and `BitOrAssign` of `BlockRange`, bloom.rs 315-347. -/
def rangeAnd (a b : List Byte) : List Byte := List.zipWith (· &&& ·) a b
def rangeOr (a b : List Byte) : List Byte := List.zipWith (· ||| ·) a b

/-- `&self.bitmap[row_start..row_end]`, bloom.rs 209-214. (The slice is in bounds because indices are smaller than
`BITVEC_BITS`.) -/
def aggRow (c : Cfg) (a : Agg) (row : Nat) : List Byte := (a.bitmap.drop (row * c.rangeBytes)).take c.rangeBytes

/-- Matches of one key, bloom.rs 205-218. -/
def matchesForKey (c : Cfg) (a : Agg) (k : Felt) : List Byte :=
  (indicesForKey c k).foldl (fun m row => rangeAnd m (aggRow c a row)) (rangeFull c)

/-- `AggregateBloom::blocks_for_keys`, bloom.rs 198-223. -/
def blocksForKeys (c : Cfg) (a : Agg) (keys : List Felt) : List Byte :=
  if keys.isEmpty then rangeFull c
  else keys.foldl (fun m k => rangeOr m (matchesForKey c a k)) (rangeEmpty c)

/-- `BlockRange::iter_ones`, bloom.rs 284-308. -/
def iterOnes (r : List Byte) : List Nat :=
  r.zipIdx.flatMap fun (bi : Byte × Nat) => (List.range 8).filterMap fun (bit : Nat) =>
    if (bi.1 >>> (7 - bit)) &&& 1#8 = 1#8 then some (bi.2 * 8 + bit) else none

/-- `check_addresses`, event.rs 549-557. -/
def checkAddresses (c : Cfg) (a : Agg) (addrs : List Felt) : List Byte :=
  if addrs.isEmpty then rangeFull c else blocksForKeys c a addrs

/-- The loop of `check_keys`, event.rs 564-585. -/
def checkKeysLoop (c : Cfg) (a : Agg) : List (List Felt × Nat) → List Byte → List Byte
  | [], result => result
  | (group, idx) :: rest, result =>
    let blocks := blocksForKeys c a (group.map (tagKey idx))
    if blocks = rangeEmpty c then rangeEmpty c else checkKeysLoop c a rest (rangeAnd result blocks)

/-- `check_keys`, event.rs 559-588. -/
def checkKeys (c : Cfg) (a : Agg) (keys : List (List Felt)) : List Byte :=
  if keys.isEmpty || keys.any List.isEmpty then rangeFull c else checkKeysLoop c a keys.zipIdx (rangeFull c)

/-- `AggregateBloom::check`, event.rs 537-547. -/
def aggCheck (c : Cfg) (a : Agg) (addrs : List Felt) (keys : List (List Felt)) : List Nat :=
  (iterOnes (rangeAnd (checkAddresses c a addrs) (checkKeys c a keys))).map (a.fromBlock + ·)

end Verif.Events
