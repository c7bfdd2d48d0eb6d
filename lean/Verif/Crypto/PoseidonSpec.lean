import Mathlib.Data.ZMod.Basic
import Verif.Crypto.FieldSpec
/-!
# The Poseidon hash, as numbers modulo the field prime

The sponge over the permutation with the matrix `((3,1,1),(1,-1,1),(1,1,-2))`, cubes, four full rounds, 83 partial rounds and
four full rounds. The round constants are a parameter.
-/
namespace Verif.Crypto.Spec

abbrev F := ZMod Kind.felt.prime

abbrev State := F × F × F

def mix : State → State
  | (a, b, c) => (3 * a + b + c, a - b + c, a + b - 2 * c)

/-- Constants for all three, cubes of all three, the matrix. -/
def full (k : Nat → F) (i : Nat) : State → State
  | (a, b, c) => mix ((a + k i) ^ 3, (b + k (i + 1)) ^ 3, (c + k (i + 2)) ^ 3)

/-- A constant for the last one, its cube, the matrix. -/
def part (k : Nat → F) (i : Nat) : State → State
  | (a, b, c) => mix (a, b, (c + k i) ^ 3)

def permute (k : Nat → F) (s : State) : State :=
  let s := (List.range 4).foldl (fun s i => full k (3 * i) s) s
  let s := (List.range 83).foldl (fun s i => part k (12 + i) s) s
  (List.range 4).foldl (fun s i => full k (95 + 3 * i) s) s

/-- The padding: a one, and a zero if the length would be odd. -/
def pad (l : List F) : List F := if l.length % 2 = 0 then l ++ [1, 0] else l ++ [1]

/-- Absorb pairs. -/
def absorb (k : Nat → F) : State → List F → State
  | (a, b, c), x :: y :: l => absorb k (permute k (a + x, b + y, c)) l
  | s, _ => s

/-- The hash of a list. -/
def hashMany (k : Nat → F) (l : List F) : F := (absorb k (0, 0, 0) (pad l)).1

/-- The hash of a pair. -/
def hashTwo (k : Nat → F) (x y : F) : F := (permute k (x, y, 2)).1

end Verif.Crypto.Spec
