/-
Property C11: trie node encoding round-trips.
-/
import Verif.Trie.Codec

namespace Verif.Trie

theorem leBytes_length (k n : Nat) : (leBytes k n).length = k := by
  induction k generalizing n with
  | zero => rfl
  | succ k ih => simp [leBytes, ih]

theorem leNat_leBytes (k n : Nat) (h : n < 256 ^ k) : leNat (leBytes k n) = n := by
  induction k generalizing n with
  | zero => simp at h; simp [leBytes, leNat, h]
  | succ k ih =>
    have h2 : n / 256 < 256 ^ k := by
      rw [Nat.pow_succ] at h
      exact Nat.div_lt_of_lt_mul (by omega)
    simp only [leBytes, leNat, ih _ h2, UInt8.toNat_ofNat']
    omega

theorem takeLe_leBytes (k n : Nat) (h : n < 256 ^ k) (rest : List UInt8) :
    takeLe k (leBytes k n ++ rest) = some (n, rest) := by
  have hl := leBytes_length k n
  have h1 : (leBytes k n ++ rest).take k = leBytes k n := by
    rw [List.take_append_of_le_length (by omega), List.take_of_length_le (by omega)]
  have h2 : (leBytes k n ++ rest).drop k = rest := by
    rw [List.drop_append_of_le_length (by omega), List.drop_of_length_le (by omega), List.nil_append]
  unfold takeLe
  rw [if_pos (by simp [hl]), h1, h2, leNat_leBytes k n h]

/-- Varints round-trip, with any trailing bytes. -/
theorem decVarint_encVarint (n : Nat) (h : n < 2 ^ 64) (rest : List UInt8) :
    decVarint (encVarint n ++ rest) = some (n, rest) := by
  unfold encVarint
  split
  · rename_i hn
    have : (UInt8.ofNat n).toNat = n := by simp; omega
    simp [decVarint, this, hn]
  · split
    · simp only [List.cons_append, decVarint]
      simpa using takeLe_leBytes 2 n (by omega) rest
    · split
      · simp only [List.cons_append, decVarint]
        simpa using takeLe_leBytes 4 n (by omega) rest
      · simp only [List.cons_append, decVarint]
        simpa using takeLe_leBytes 8 n (by omega) rest

theorem encVarint_length (n : Nat) : (encVarint n).length ≤ 9 := by
  unfold encVarint
  split <;> (try split) <;> (try split) <;> simp [leBytes_length]

theorem decBytes_encBytes (bs rest : List UInt8) (h : bs.length < 2 ^ 64) :
    decBytes (encBytes bs ++ rest) = some (bs, rest) := by
  simp [decBytes, encBytes, decVarint_encVarint _ h]

theorem bitsOfByte_byteOfBits (a b c d e f g h : Bool) :
    bitsOfByte (byteOfBits [a, b, c, d, e, f, g, h]) = [a, b, c, d, e, f, g, h] := by
  cases a <;> cases b <;> cases c <;> cases d <;> cases e <;> cases f <;> cases g <;> cases h <;> decide

theorem fromVec_packBits (n : Nat) : ∀ p : List Bool, p.length = 8 * n → fromVec (packBits p) = p := by
  induction n with
  | zero => intro p h; match p, h with | [], _ => rfl
  | succ n ih =>
    intro p hp
    match p, hp with
    | a :: b :: c :: d :: e :: f :: g :: h :: rest, hp =>
      have : rest.length = 8 * n := by simp at hp; omega
      simp only [packBits, fromVec, List.flatMap_cons, bitsOfByte_byteOfBits]
      have := ih rest this
      simp only [fromVec] at this
      rw [this]
      rfl

theorem packBits_length (n : Nat) : ∀ p : List Bool, p.length = 8 * n → (packBits p).length = n := by
  induction n with
  | zero => intro p h; match p, h with | [], _ => rfl
  | succ n ih =>
    intro p hp
    match p, hp with
    | a :: b :: c :: d :: e :: f :: g :: h :: rest, hp =>
      have : rest.length = 8 * n := by simp at hp; omega
      simp [packBits, ih rest this]

theorem pad_length (dead path : List Bool) (hd : dead.length = 7) :
    (path ++ dead.take (padLen path.length)).length = 8 * ((path.length + 7) / 8) := by
  simp only [List.length_append, List.length_take, hd, padLen]
  omega

theorem alignedVec_length (dead path : List Bool) (hd : dead.length = 7) :
    (alignedVec dead path).length = (path.length + 7) / 8 :=
  packBits_length _ _ (pad_length dead path hd)

theorem fromVec_alignedVec (dead path : List Bool) (hd : dead.length = 7) :
    fromVec (alignedVec dead path) = path ++ dead.take (padLen path.length) :=
  fromVec_packBits _ _ (pad_length dead path hd)

theorem decPath_encPath (dead path : List Bool) (hd : dead.length = 7) (hp : path.length < 256) :
    decPath (encPath dead path) = some path := by
  have h1 : (UInt8.ofNat (path.length % 256)).toNat = path.length := by simp; omega
  simp only [decPath, encPath, List.getLast?_append, List.getLast?_singleton, Option.some_or,
    List.dropLast_concat, h1, fromVec_alignedVec dead path hd, resize, List.take_left]
  have : path.length - (path ++ dead.take (padLen path.length)).length = 0 := by
    simp only [List.length_append]; omega
  rw [this]
  simp

theorem encPath_length (dead path : List Bool) (hd : dead.length = 7) :
    (encPath dead path).length = (path.length + 7) / 8 + 1 := by
  simp [encPath, alignedVec_length dead path hd]

/-- A stored node the database can hold: indices are 64-bit, paths fit the length byte. -/
def StoredNode.Fits : StoredNode → Prop
  | .binary l r => l < 2 ^ 64 ∧ r < 2 ^ 64
  | .edge c p => c < 2 ^ 64 ∧ p.length < 256
  | .leafBinary => True
  | .leafEdge p => p.length < 256

/-- **C11** For every node with 64-bit indices and a path of fewer than 256 bits (251 is the largest that occurs),
whatever the unused bits of the last byte are: encoding succeeds in any buffer of at least 60 bytes (the code uses
256) and decoding returns the node, also when other bytes follow. -/
theorem C11_node_codec_roundtrip (n : StoredNode) (hn : n.Fits) (dead : List Bool) (hd : dead.length = 7)
    (rest : List UInt8) (buf : Nat) (hbuf : 60 ≤ buf) :
    ∃ bs, encodeInto dead buf n = some bs ∧ decodeNode (bs ++ rest) = some n := by
  have hv : ∀ v < 4, ∀ r : List UInt8, decVarint (encVarint v ++ r) = some (v, r) :=
    fun v h r => decVarint_encVarint v (by omega) r
  have hvl : ∀ v < 4, (encVarint v).length = 1 := by
    intro v h; simp [encVarint, show v < 251 by omega]
  have hpl : ∀ p : List Bool, p.length < 256 → (encPath dead p).length ≤ 33 ∧
      (encBytes (encPath dead p)).length ≤ 34 := by
    intro p hp
    have h1 := encPath_length dead p hd
    have h2 : (encVarint (encPath dead p).length).length = 1 := by
      simp [encVarint, show (encPath dead p).length < 251 by omega]
    simp only [encBytes, List.length_append, h2]
    omega
  cases n with
  | binary l r =>
    have h1 := encVarint_length l
    have h2 := encVarint_length r
    have h3 := hvl 0 (by omega)
    refine ⟨_, if_pos ?_, ?_⟩
    · simp only [encodeNode, List.length_append]; omega
    · simp [decodeNode, encodeNode, List.append_assoc, hv, decVarint_encVarint _ hn.1, decVarint_encVarint _ hn.2]
  | edge c p =>
    have h1 := encVarint_length c
    have h2 := hpl p hn.2
    have h3 := hvl 1 (by omega)
    refine ⟨_, if_pos ?_, ?_⟩
    · simp only [encodeNode, List.length_append]; omega
    · simp [decodeNode, encodeNode, List.append_assoc, hv, decVarint_encVarint _ hn.1,
        decBytes_encBytes (encPath dead p) rest (by omega), decPath_encPath dead p hd hn.2]
  | leafBinary =>
    have h3 := hvl 2 (by omega)
    refine ⟨_, if_pos ?_, ?_⟩
    · simp only [encodeNode]; omega
    · simp [decodeNode, encodeNode, hv]
  | leafEdge p =>
    have h2 := hpl p hn
    have h3 := hvl 3 (by omega)
    refine ⟨_, if_pos ?_, ?_⟩
    · simp only [encodeNode, List.length_append]; omega
    · simp [decodeNode, encodeNode, List.append_assoc, hv,
        decBytes_encBytes (encPath dead p) rest (by omega), decPath_encPath dead p hd hn]

/-- **C11** Distinct nodes have distinct encodings, whatever the unused bits. -/
theorem C11_node_codec_injective (n m : StoredNode) (hn : n.Fits) (hm : m.Fits) (dead dead' : List Bool)
    (hd : dead.length = 7) (hd' : dead'.length = 7) (h : encodeNode dead n = encodeNode dead' m) : n = m := by
  obtain ⟨bs, e, h1⟩ := C11_node_codec_roundtrip n hn dead hd [] 60 (by omega)
  obtain ⟨bs', e', h2⟩ := C11_node_codec_roundtrip m hm dead' hd' [] 60 (by omega)
  unfold encodeInto at e e'
  split at e <;> split at e' <;> simp_all

theorem decMany_ok (is : List Nat) (h : ∀ i ∈ is, i < 2 ^ 64) (rest : List UInt8) :
    decMany is.length (is.flatMap encVarint ++ rest) = some (is, rest) := by
  induction is with
  | nil => rfl
  | cons i is ih =>
    simp only [List.length_cons, decMany, List.flatMap_cons, List.append_assoc]
    rw [decVarint_encVarint i (h i List.mem_cons_self)]
    simp only [ih (fun j hj => h j (List.mem_cons_of_mem _ hj))]

/-- **C11** The list of indices of a removal marker round-trips. -/
theorem C11_removal_indices_roundtrip (is : List Nat) (h : ∀ i ∈ is, i < 2 ^ 64) (hl : is.length < 2 ^ 64) :
    decodeIndices (encodeIndices is) = some is := by
  have := decMany_ok is h []
  simp only [List.append_nil] at this
  simp [decodeIndices, encodeIndices, decVarint_encVarint _ hl, this]

/-- A 251-bit path meets the hypotheses. -/
example : (StoredNode.edge 70000 (List.replicate 251 true)).Fits := ⟨by omega, by rw [List.length_replicate]; omega⟩

example : encodeNode (List.replicate 7 true) (.edge 300 [true, false, true]) = [1, 251, 44, 1, 2, 191, 3] ∧
    decodeNode [1, 251, 44, 1, 2, 191, 3] = some (.edge 300 [true, false, true]) := by decide

end Verif.Trie
