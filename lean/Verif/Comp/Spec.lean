import Verif.Comp.Model
/-! # Specification: compiling a class -/

namespace Verif.Comp

/-- The number that a short string stands for: its bytes, big-endian. -/
def shortString (s : String) : Nat := s.toList.foldl (fun n c => n * 256 + c.toNat) 0

/-- The version that a program states: "0.1.0" as a short string in its first element, or
else three numbers of 64 bits at its beginning. -/
inductive States : List Nat → Nat × Nat × Nat → Prop
  | text (rest : List Nat) : States (shortString "0.1.0" :: rest) (0, 1, 0)
  | numbers (a b c : Nat) (rest : List Nat) : a ≠ shortString "0.1.0" → a < 2 ^ 64 → b < 2 ^ 64 → c < 2 ^ 64 →
      States (a :: b :: c :: rest) (a, b, c)

/-- The compiler for a version. -/
def compilerFor (t : Tools) (l : Libfuncs) (max : Nat) : Nat × Nat × Nat → Sierra → Res
  | (0, 1, 0) => t.alpha6
  | (1, 0, 0) => t.rc0
  | (1, 1, 0) => t.v111
  | _ => t.v2 l max

/-- `casm` is what the class with this text is compiled to. -/
def CompilesTo (t : Tools) (l : Libfuncs) (max : Nat) (input casm : Bytes) : Prop :=
  ∃ c v, t.read input = some c ∧ States c.program v ∧ compilerFor t l max v c = .ok casm

end Verif.Comp
