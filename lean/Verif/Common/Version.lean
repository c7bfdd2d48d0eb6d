import Verif.Events.TokenText
/-!
# Protocol versions

Model of `StarknetVersion` in `crates/common/src/lib.rs`. A string is the list of its characters; the text form of a `u8` is the one of
the standard library (`Verif.Events.TokenText`).
-/
namespace Verif.Common
open Verif.Events.TokenText (showNat readNat)

/-- `StarknetVersion` (common/src/lib.rs:491-492). -/
structure Version where
  a : UInt8
  b : UInt8
  c : UInt8
  d : UInt8
  deriving DecidableEq, Repr

/-- The derived `Ord` (lib.rs:491): the fields in order, each compared as a number. -/
def Version.cmp (v w : Version) : Ordering :=
  ((compare v.a.toNat w.a.toNat).then (compare v.b.toNat w.b.toNat)).then
    ((compare v.c.toNat w.c.toNat).then (compare v.d.toNat w.d.toNat))

/-- `as_u32` (lib.rs:499-501): little endian. -/
def Version.asU32 (v : Version) : Nat := v.a.toNat + 256 * (v.b.toNat + 256 * (v.c.toNat + 256 * v.d.toNat))

/-- `from_u32` (lib.rs:503-506). -/
def Version.fromU32 (n : Nat) : Version :=
  ⟨UInt8.ofNat (n % 256), UInt8.ofNat (n / 256 % 256), UInt8.ofNat (n / 65536 % 256), UInt8.ofNat (n / 16777216 % 256)⟩

/-- `split('.')`: always at least one part. -/
def splitDots : List Char → List (List Char)
  | [] => [[]]
  | c :: cs => if c = '.' then [] :: splitDots cs
    else match splitDots cs with
      | [] => [[c]]
      | p :: ps => (c :: p) :: ps

/-- `parse::<u8>`. -/
def readU8 (s : List Char) : Option UInt8 := (readNat 256 s).map UInt8.ofNat

/-- `from_str` (lib.rs:534-556). -/
def Version.read (s : List Char) : Option Version :=
  if s = [] then some ⟨0, 0, 0, 0⟩
  else match splitDots s with
    | [a, b, c] => do return ⟨← readU8 a, ← readU8 b, ← readU8 c, 0⟩
    | [a, b, c, d] => do return ⟨← readU8 a, ← readU8 b, ← readU8 c, ← readU8 d⟩
    | _ => none

/-- `fmt` (lib.rs:558-569). -/
def Version.show (v : Version) : List Char :=
  if v.a = 0 ∧ v.b = 0 ∧ v.c = 0 ∧ v.d = 0 then []
  else if v.d = 0 then showNat v.a.toNat ++ '.' :: (showNat v.b.toNat ++ '.' :: showNat v.c.toNat)
  else showNat v.a.toNat ++ '.' :: (showNat v.b.toNat ++ '.' :: (showNat v.c.toNat ++ '.' :: showNat v.d.toNat))

end Verif.Common
