import Verif.Crypto.CurveProps
import Verif.Crypto.Pedersen
/-!
# Correctness of the tables

The kernel checks, entry by entry, that each point of a table is the sum of the one before it and the first point of its chunk, and
that the first point of the next chunk is the next such sum. The equations are those of the group law, on Montgomery representations,
without divisions.
-/
namespace Verif.Crypto

/-- The Montgomery factor. -/
abbrev mR : Nat := 2 ^ 256

/-- `R` modulo the field prime. -/
abbrev mRp : Nat := 3618502788666127798953978732740734578953660990361066340291730267701097005025

/-- `q3 = q1 + q2` for points with different first coordinates. -/
def addOk (q1 q2 q3 : Nat × Nat) : Bool :=
  let dx := q1.1 + (pN - q2.1)
  let dy := q1.2 + (pN - q2.2)
  Nat.blt q3.1 pN && Nat.blt q3.2 pN && !Nat.beq q1.1 q2.1 &&
    Nat.beq ((q3.1 + q1.1 + q2.1) * (dx * dx) % pN) (mRp * (dy * dy) % pN) &&
    Nat.beq ((q3.2 + q1.2) * dx % pN) (dy * (q1.1 + (pN - q3.1)) % pN)

/-- `q3 = q1 + q1`. -/
def doubleOk (q1 q3 : Nat × Nat) : Bool :=
  let dy := 2 * q1.2
  let dx := 3 * (q1.1 * q1.1) + mRp * mRp
  Nat.blt q3.1 pN && Nat.blt q3.2 pN &&
    Nat.beq (mRp * (q3.1 + q1.1 + q1.1) * (dy * dy) % pN) (dx * dx % pN) &&
    Nat.beq (mRp * (q3.2 + q1.2) * dy % pN) (dx * (q1.1 + (pN - q3.1)) % pN)

/-- The remaining entries of a chunk with first point `b`, after the entry `p`; then what is to be checked of the last one. -/
def seqOk (b : Nat × Nat) (k : Nat × Nat → Bool) : Nat × Nat → List (Nat × Nat) → Bool
  | p, [] => k p
  | p, q :: l => addOk b p q && seqOk b k q l

/-- A chunk of a table. -/
def chunkOk (b : Nat × Nat) (k : Nat × Nat → Bool) : List (Nat × Nat) → Bool
  | q0 :: q1 :: l => Nat.beq q0.1 b.1 && Nat.beq q0.2 b.2 && doubleOk b q1 && seqOk b k q1 l
  | _ => false

/-- A table: the first point of each chunk is the next multiple after the chunk before. -/
def tableOk (size : Nat) : Nat × Nat → List (List (Nat × Nat)) → Bool
  | _, [] => true
  | b, c :: cs => Nat.beq c.length size && match cs with
    | [] => chunkOk b (fun _ => true) c
    | c' :: _ => match c' with
      | [] => false
      | b' :: _ => chunkOk b (fun p => addOk b p b') c && tableOk size b' cs

end Verif.Crypto
